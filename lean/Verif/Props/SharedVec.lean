import Verif.Lemmas.SharedVec
/-!
# C53: shared derivative storage never overlaps within a parallel group
-/
namespace OpenMDAO
set_option linter.unusedSectionVars false

theorem isRel_eq (relevant : RelDict) (voi : Option Path) (top : Path) : isRel relevant voi top = decide (RelTo relevant voi top) := by
  unfold isRel RelTo
  split <;> rename_i h <;> simp [h]

theorem srcSlice_place (relevant : RelDict) (voi : Option Path) :
    srcSlice relevant voi = placeStep (fun m => decide (StoredU relevant voi m)) (fun m => if StoredU relevant voi m then m.size else 0) := by
  funext st m
  unfold srcSlice placeStep StoredU
  rw [isRel_eq]
  by_cases h1 : RelTo relevant voi m.top <;> rcases Bool.eq_false_or_eq_true m.pbo with h2 | h2 <;> rcases Bool.eq_false_or_eq_true m.remote with h3 | h3 <;> simp [h1, h2, h3]

/-- size of the parameter in the vector -/
def tgtNeed (relevant : RelDict) (voi : Option Path) (owned : List Path) (m : DerMeta) : Nat :=
  if RelTo relevant voi m.top ∧ m.path ∈ owned ∧ m.remote = false then tgtSize m else 0

theorem tgtSlice_place (relevant : RelDict) (voi : Option Path) (owned : List Path) :
    tgtSlice relevant voi owned = placeStep (fun m => decide (StoredP relevant voi owned m)) (tgtNeed relevant voi owned) := by
  funext st m
  unfold tgtSlice placeStep StoredP tgtNeed
  rw [isRel_eq]
  by_cases h1 : RelTo relevant voi m.top <;> by_cases h0 : m.path ∈ owned <;> rcases Bool.eq_false_or_eq_true m.pbo with h2 | h2 <;> rcases Bool.eq_false_or_eq_true m.remote with h3 | h3 <;> rcases Bool.eq_false_or_eq_true m.srcPbo with h4 | h4 <;> simp [h1, h0, h2, h3, h4]

theorem pair_split {a b : Path} : ∀ (g : List Path), a ∈ g → b ∈ g → a ≠ b →
    ∃ pre mid post, g = pre ++ a :: (mid ++ b :: post) ∨ g = pre ++ b :: (mid ++ a :: post) := by
  intro g ha hb hab
  obtain ⟨pre, post, rfl⟩ := List.append_of_mem ha
  rw [List.mem_append, List.mem_cons] at hb
  rcases hb with hb | hb | hb
  · obtain ⟨p, q, rfl⟩ := List.append_of_mem hb
    exact ⟨p, q, post, .inr (by simp)⟩
  · exact absurd hb.symm hab
  · obtain ⟨p, q, rfl⟩ := List.append_of_mem hb
    exact ⟨pre, p, q, .inl rfl⟩

/-- The general fact: vectors whose need is within what `_get_shared_vec_info` counted fit and do not overlap within a group. -/
theorem shared_offsets {relevant : RelDict} {groups : List (List Path)} {owned : Option (List Path)} {vdict : List DerMeta} {sh : ShSt}
    (h : sharedVecInfo true relevant groups owned vdict = .ok sh) (hn : groups.flatten.Nodup) :
    (sh.offsets.lookup none = some 0 ∧ ((sharedMetas owned vdict).map DerMeta.size).sum ≤ sh.size) ∧
    (∀ v ∈ groups.flatten, ∃ o, sh.offsets.lookup (some v) = some o ∧ o + voiNeed relevant (sharedMetas owned vdict) v ≤ sh.size) ∧
    ∀ g ∈ groups, ∀ a ∈ g, ∀ b ∈ g, a ≠ b → ∀ oa ob, sh.offsets.lookup (some a) = some oa → sh.offsets.lookup (some b) = some ob →
      oa + voiNeed relevant (sharedMetas owned vdict) a ≤ ob ∨ ob + voiNeed relevant (sharedMetas owned vdict) b ≤ oa := by
  unfold sharedVecInfo at h
  rw [if_pos rfl] at h
  obtain ⟨h1, -, h3, -, h5⟩ := sharedGroups_fold _ _ _ _ _ h hn
  refine ⟨⟨by rw [h3 none (by simp)]; simp, h1⟩, ?_, ?_⟩
  · intro v hv
    obtain ⟨g, hg, hvg⟩ := List.mem_flatten.1 hv
    obtain ⟨hs, ho⟩ := h5 g hg
    obtain ⟨pre, post, rfl⟩ := List.append_of_mem hvg
    refine ⟨_, ho _ _ _ rfl, ?_⟩
    simp only [List.map_append, List.sum_append, List.map_cons, List.sum_cons] at hs
    omega
  · intro g hg a ha b hb hab oa ob ea eb
    obtain ⟨-, ho⟩ := h5 g hg
    obtain ⟨pre, mid, post, hs | hs⟩ := pair_split g ha hb hab
    · rw [ho pre a _ hs] at ea
      rw [ho (pre ++ a :: mid) b post (by rw [hs]; simp)] at eb
      simp only [Option.some.injEq, List.map_append, List.sum_append, List.map_cons, List.sum_cons] at ea eb
      left; omega
    · rw [ho pre b _ hs] at eb
      rw [ho (pre ++ b :: mid) a post (by rw [hs]; simp)] at ea
      simp only [Option.some.injEq, List.map_append, List.sum_append, List.map_cons, List.sum_cons] at ea eb
      right; omega

theorem need_some (relevant : RelDict) (metas : List DerMeta) (v : Path) (hs : (relevant.lookup (some v)).isSome) :
    voiNeed relevant metas v = (metas.map fun m => if RelTo relevant (some v) m.top then m.size else 0).sum := by
  obtain ⟨r, hr⟩ := Option.isSome_iff_exists.1 hs
  unfold voiNeed relSize
  rw [hr, sum_filter_ite]
  simp [RelTo, hr]

theorem srcNeed_le (relevant : RelDict) (vdict : List DerMeta) (v : Path) (hs : (relevant.lookup (some v)).isSome) :
    (vdict.map fun m => if StoredU relevant (some v) m then m.size else 0).sum ≤ voiNeed relevant (sharedMetas none vdict) v := by
  rw [need_some _ _ _ hs]
  unfold sharedMetas
  rw [sum_filter_ite]
  apply sum_le_sum_of
  intro m _
  unfold StoredU
  by_cases h1 : RelTo relevant (some v) m.top <;> rcases Bool.eq_false_or_eq_true m.pbo with h2 | h2 <;> rcases Bool.eq_false_or_eq_true m.remote with h3 | h3 <;> simp [h1, h2, h3]

theorem srcNeed_le_full (relevant : RelDict) (vdict : List DerMeta) (v : Option Path) :
    (vdict.map fun m => if StoredU relevant v m then m.size else 0).sum ≤ ((sharedMetas none vdict).map DerMeta.size).sum := by
  unfold sharedMetas
  rw [sum_filter_ite]
  apply sum_le_sum_of
  intro m _
  unfold StoredU
  by_cases h1 : RelTo relevant v m.top <;> rcases Bool.eq_false_or_eq_true m.pbo with h2 | h2 <;> rcases Bool.eq_false_or_eq_true m.remote with h3 | h3 <;> simp [h1, h2, h3]

theorem tgtSize_le (m : DerMeta) (hw : DeclWF m) (hp : ¬ PboOnVector m) : tgtSize m ≤ if m.pbo then 0 else m.size := by
  unfold tgtSize
  obtain ⟨w1, w2, w3⟩ := hw
  unfold PboOnVector at hp
  cases h2 : m.pbo <;> cases h3 : m.srcPbo <;> cases h4 : m.srcIdx <;> simp_all

theorem tgtNeed_le (relevant : RelDict) (owned : List Path) (vdict : List DerMeta) (v : Path) (hs : (relevant.lookup (some v)).isSome)
    (hw : ∀ m ∈ vdict, DeclWF m) (hp : ∀ m ∈ vdict, ¬ PboOnVector m) :
    (vdict.map (tgtNeed relevant (some v) owned)).sum ≤ voiNeed relevant (sharedMetas (some owned) vdict) v := by
  rw [need_some _ _ _ hs]
  unfold sharedMetas
  rw [sum_filter_ite]
  apply sum_le_sum_of
  intro m hm
  have := tgtSize_le m (hw m hm) (hp m hm)
  unfold tgtNeed
  by_cases h1 : RelTo relevant (some v) m.top <;> by_cases h0 : m.path ∈ owned <;> rcases Bool.eq_false_or_eq_true m.pbo with h2 | h2 <;> rcases Bool.eq_false_or_eq_true m.remote with h3 | h3 <;> simp_all

theorem tgtNeed_le_full (relevant : RelDict) (owned : List Path) (vdict : List DerMeta) (v : Option Path)
    (hw : ∀ m ∈ vdict, DeclWF m) (hp : ∀ m ∈ vdict, ¬ PboOnVector m) :
    (vdict.map (tgtNeed relevant v owned)).sum ≤ ((sharedMetas (some owned) vdict).map DerMeta.size).sum := by
  unfold sharedMetas
  rw [sum_filter_ite]
  apply sum_le_sum_of
  intro m hm
  have := tgtSize_le m (hw m hm) (hp m hm)
  unfold tgtNeed
  by_cases h1 : RelTo relevant v m.top <;> by_cases h0 : m.path ∈ owned <;> rcases Bool.eq_false_or_eq_true m.pbo with h2 | h2 <;> rcases Bool.eq_false_or_eq_true m.remote with h3 | h3 <;> simp_all

theorem shared_rel {relevant : RelDict} {groups : List (List Path)} {owned : Option (List Path)} {vdict : List DerMeta} {sh : ShSt}
    (h : sharedVecInfo true relevant groups owned vdict = .ok sh) (hn : groups.flatten.Nodup) :
    ∀ v ∈ groups.flatten, (relevant.lookup (some v)).isSome := by
  unfold sharedVecInfo at h
  rw [if_pos rfl] at h
  exact (sharedGroups_fold _ _ _ _ _ h hn).2.2.2.1

/-- C53, unknowns and residuals: the derivative vectors of two variables of interest of one group have no cell in common. -/
theorem C53_unknowns_disjoint {relevant : RelDict} {groups : List (List Path)} {vdict : List DerMeta} {sh : ShSt}
    (h : sharedVecInfo true relevant groups none vdict = .ok sh) (hn : groups.flatten.Nodup)
    {g : List Path} (hg : g ∈ groups) {a b : Path} (ha : a ∈ g) (hb : b ∈ g) (hab : a ≠ b) {oa ob : Nat}
    (hoa : sh.offsets.lookup (some a) = some oa) (hob : sh.offsets.lookup (some b) = some ob) :
    ∀ c ∈ srcVector sh.size oa relevant (some a) vdict, ∀ d ∈ srcVector sh.size ob relevant (some b) vdict, Apart c d := by
  obtain ⟨-, h2, h3⟩ := shared_offsets h hn
  have hrel := shared_rel h hn
  have ma : a ∈ groups.flatten := List.mem_flatten.2 ⟨g, hg, ha⟩
  have mb : b ∈ groups.flatten := List.mem_flatten.2 ⟨g, hg, hb⟩
  have na := srcNeed_le relevant vdict a (hrel a ma)
  have nb := srcNeed_le relevant vdict b (hrel b mb)
  obtain ⟨_, ea, fa⟩ := h2 a ma
  obtain ⟨_, eb, fb⟩ := h2 b mb
  rw [hoa] at ea; rw [hob] at eb
  cases ea; cases eb
  have hd := h3 g hg a ha b hb hab oa ob hoa hob
  unfold srcVector
  rw [srcSlice_place, srcSlice_place]
  have pa := (place_cells (fun m => decide (StoredU relevant (some a) m)) (fun m => if StoredU relevant (some a) m then m.size else 0) vdict sh.size oa (by omega)).2.1
  have pb := (place_cells (fun m => decide (StoredU relevant (some b) m)) (fun m => if StoredU relevant (some b) m then m.size else 0) vdict sh.size ob (by omega)).2.1
  intro c hc d hd'
  have := pa c hc
  have := pb d hd'
  intro i hi
  omega

/-- C53, unknowns and residuals: every vector, the one for no particular variable of interest included, has an offset; every variable it stores has all its cells inside the shared array and no two of
them share a cell. -/
theorem C53_unknowns_fit {relevant : RelDict} {groups : List (List Path)} {vdict : List DerMeta} {sh : ShSt}
    (h : sharedVecInfo true relevant groups none vdict = .ok sh) (hn : groups.flatten.Nodup)
    (voi : Option Path) (hv : ∀ v, voi = some v → v ∈ groups.flatten) :
    ∃ o, sh.offsets.lookup voi = some o ∧
      (srcVector sh.size o relevant voi vdict).map (fun c => (c.path, c.len)) = (vdict.filter (StoredU relevant voi ·)).map (fun m => (m.path, m.size)) ∧
      (∀ c ∈ srcVector sh.size o relevant voi vdict, c.off + c.len ≤ sh.size) ∧ (srcVector sh.size o relevant voi vdict).Pairwise Apart := by
  obtain ⟨h1, h2, -⟩ := shared_offsets h hn
  have hrel := shared_rel h hn
  have key : ∃ o, sh.offsets.lookup voi = some o ∧ o + (vdict.map fun m => if StoredU relevant voi m then m.size else 0).sum ≤ sh.size := by
    cases voi with
    | none =>
      refine ⟨0, h1.1, ?_⟩
      have := srcNeed_le_full relevant vdict none
      omega
    | some v =>
      obtain ⟨o, e, f⟩ := h2 v (hv v rfl)
      have := srcNeed_le relevant vdict v (hrel v (hv v rfl))
      exact ⟨o, e, by omega⟩
  obtain ⟨o, e, f⟩ := key
  obtain ⟨p1, p2, p3⟩ := place_cells (fun m => decide (StoredU relevant voi m)) (fun m => if StoredU relevant voi m then m.size else 0) vdict sh.size o f
  refine ⟨o, e, ?_⟩
  unfold srcVector
  rw [srcSlice_place]
  refine ⟨?_, fun c hc => by have := p2 c hc; omega, p3⟩
  rw [p1]
  apply List.map_congr_left
  intro m hm
  simp only [List.mem_filter, decide_eq_true_eq] at hm
  simp [hm.2]

/-- C53, parameters, unless a parameter is passed by object and its source is not: the derivative vectors of two variables of interest of one group have no cell in common. -/
theorem C53_params_disjoint_partial {relevant : RelDict} {groups : List (List Path)} {owned : List Path} {vdict : List DerMeta} {sh : ShSt}
    (h : sharedVecInfo true relevant groups (some owned) vdict = .ok sh) (hn : groups.flatten.Nodup)
    (hw : ∀ m ∈ vdict, DeclWF m) (hp : ∀ m ∈ vdict, ¬ PboOnVector m)
    {g : List Path} (hg : g ∈ groups) {a b : Path} (ha : a ∈ g) (hb : b ∈ g) (hab : a ≠ b) {oa ob : Nat}
    (hoa : sh.offsets.lookup (some a) = some oa) (hob : sh.offsets.lookup (some b) = some ob) :
    ∀ c ∈ tgtVector sh.size oa relevant (some a) owned vdict, ∀ d ∈ tgtVector sh.size ob relevant (some b) owned vdict, Apart c d := by
  obtain ⟨-, h2, h3⟩ := shared_offsets h hn
  have hrel := shared_rel h hn
  have ma : a ∈ groups.flatten := List.mem_flatten.2 ⟨g, hg, ha⟩
  have mb : b ∈ groups.flatten := List.mem_flatten.2 ⟨g, hg, hb⟩
  have na := tgtNeed_le relevant owned vdict a (hrel a ma) hw hp
  have nb := tgtNeed_le relevant owned vdict b (hrel b mb) hw hp
  obtain ⟨_, ea, fa⟩ := h2 a ma
  obtain ⟨_, eb, fb⟩ := h2 b mb
  rw [hoa] at ea; rw [hob] at eb
  cases ea; cases eb
  have hd := h3 g hg a ha b hb hab oa ob hoa hob
  unfold tgtVector
  rw [tgtSlice_place, tgtSlice_place]
  have pa := (place_cells (fun m => decide (StoredP relevant (some a) owned m)) (tgtNeed relevant (some a) owned) vdict sh.size oa (by omega)).2.1
  have pb := (place_cells (fun m => decide (StoredP relevant (some b) owned m)) (tgtNeed relevant (some b) owned) vdict sh.size ob (by omega)).2.1
  intro c hc d hd'
  have := pa c hc
  have := pb d hd'
  intro i hi
  omega

/-- C53, parameters, with the same exception: every stored parameter has all its cells (as many as it has source indices, else as its source has entries) inside the shared array, and no two share a
cell. -/
theorem C53_params_fit_partial {relevant : RelDict} {groups : List (List Path)} {owned : List Path} {vdict : List DerMeta} {sh : ShSt}
    (h : sharedVecInfo true relevant groups (some owned) vdict = .ok sh) (hn : groups.flatten.Nodup)
    (hw : ∀ m ∈ vdict, DeclWF m) (hp : ∀ m ∈ vdict, ¬ PboOnVector m)
    (voi : Option Path) (hv : ∀ v, voi = some v → v ∈ groups.flatten) :
    ∃ o, sh.offsets.lookup voi = some o ∧
      (tgtVector sh.size o relevant voi owned vdict).map (fun c => (c.path, c.len)) =
        (vdict.filter (StoredP relevant voi owned ·)).map (fun m => (m.path, if m.srcIdx then m.size else m.srcSize)) ∧
      (∀ c ∈ tgtVector sh.size o relevant voi owned vdict, c.off + c.len ≤ sh.size) ∧ (tgtVector sh.size o relevant voi owned vdict).Pairwise Apart := by
  obtain ⟨h1, h2, -⟩ := shared_offsets h hn
  have hrel := shared_rel h hn
  have key : ∃ o, sh.offsets.lookup voi = some o ∧ o + (vdict.map (tgtNeed relevant voi owned)).sum ≤ sh.size := by
    cases voi with
    | none =>
      refine ⟨0, h1.1, ?_⟩
      have := tgtNeed_le_full relevant owned vdict none hw hp
      omega
    | some v =>
      obtain ⟨o, e, f⟩ := h2 v (hv v rfl)
      have := tgtNeed_le relevant owned vdict v (hrel v (hv v rfl)) hw hp
      exact ⟨o, e, by omega⟩
  obtain ⟨o, e, f⟩ := key
  obtain ⟨p1, p2, p3⟩ := place_cells (fun m => decide (StoredP relevant voi owned m)) (tgtNeed relevant voi owned) vdict sh.size o f
  refine ⟨o, e, ?_⟩
  unfold tgtVector
  rw [tgtSlice_place]
  refine ⟨?_, fun c hc => by have := p2 c hc; omega, p3⟩
  rw [p1]
  apply List.map_congr_left
  intro m hm
  simp only [List.mem_filter, decide_eq_true_eq] at hm
  have := hm.2
  unfold StoredP at this
  simp [tgtNeed, this, tgtSize]

/-- The shared array is no larger than needed: it is the size of the vector of everything or of all vectors of one group together. -/
theorem C53_storage_tight {relevant : RelDict} {groups : List (List Path)} {owned : Option (List Path)} {vdict : List DerMeta} {sh : ShSt}
    (h : sharedVecInfo true relevant groups owned vdict = .ok sh) (hn : groups.flatten.Nodup) :
    let size (voi : Option Path) := ((vdict.filter fun m => decide (RelTo relevant voi m.top ∧ m.pbo = false ∧ ∀ ps, owned = some ps → m.path ∈ ps)).map DerMeta.size).sum
    sh.size = ((vdict.filter fun m => decide (m.pbo = false ∧ ∀ ps, owned = some ps → m.path ∈ ps)).map DerMeta.size).sum ∨
      ∃ g ∈ groups, sh.size = (g.map fun v => size (some v)).sum := by
  have hrel := shared_rel h hn
  have hmetas : sharedMetas owned vdict = vdict.filter fun m => decide (m.pbo = false ∧ ∀ ps, owned = some ps → m.path ∈ ps) := by
    unfold sharedMetas
    cases owned with
    | none => apply List.filter_congr; intro m _; cases m.pbo <;> simp
    | some ps => apply List.filter_congr; intro m _; by_cases h : m.path ∈ ps <;> cases m.pbo <;> simp [h]
  unfold sharedVecInfo at h
  rw [if_pos rfl] at h
  obtain ⟨-, h2, -⟩ := sharedGroups_fold _ _ _ _ _ h hn
  intro size
  rcases h2 with h2 | ⟨g, hg, h2⟩
  · left; rw [h2, hmetas]
  · right
    refine ⟨g, hg, ?_⟩
    rw [h2]
    congr 1
    apply List.map_congr_left
    intro v hv
    have hs := hrel v (List.mem_flatten.2 ⟨g, hg, hv⟩)
    have e := sum_filter_ite (vdict.filter fun m => decide (m.pbo = false ∧ ∀ ps, owned = some ps → m.path ∈ ps)) (fun m => decide (RelTo relevant (some v) m.top)) DerMeta.size
    simp only [decide_eq_true_eq] at e
    rw [need_some _ _ _ hs, hmetas, ← e, List.filter_filter]
    show _ = ((vdict.filter _).map _).sum
    congr 2
    apply List.filter_congr
    intro m _
    simp [and_comm]

/-- With a solver other than Gauss-Seidel at the top only the vector of everything exists, and it fits. -/
theorem C53_single_vector (relevant : RelDict) (groups : List (List Path)) (vdict : List DerMeta) :
    ∃ sh, sharedVecInfo false relevant groups none vdict = .ok sh ∧ sh.offsets = [(none, 0)] ∧
      (srcVector sh.size 0 relevant none vdict).map (fun c => (c.path, c.len)) = (vdict.filter (StoredU relevant none ·)).map (fun m => (m.path, m.size)) ∧
      (∀ c ∈ srcVector sh.size 0 relevant none vdict, c.off + c.len ≤ sh.size) ∧ (srcVector sh.size 0 relevant none vdict).Pairwise Apart := by
  refine ⟨⟨((sharedMetas none vdict).map DerMeta.size).sum, [(none, 0)]⟩, rfl, rfl, ?_⟩
  have f := srcNeed_le_full relevant vdict none
  obtain ⟨p1, p2, p3⟩ := place_cells (fun m => decide (StoredU relevant none m)) (fun m => if StoredU relevant none m then m.size else 0) vdict
    ((sharedMetas none vdict).map DerMeta.size).sum 0 (by omega)
  unfold srcVector
  rw [srcSlice_place]
  refine ⟨?_, fun c hc => by have := p2 c hc; simp only at *; omega, p3⟩
  rw [p1]
  apply List.map_congr_left
  intro m hm
  simp only [List.mem_filter, decide_eq_true_eq] at hm
  simp [hm.2]

/-- Two unknowns, two responses solved together: the vectors take cells 0-4 and 5-7. -/
def exMetas : List DerMeta :=
  [⟨["a", "x"], ["x"], 3, false, false, 0, false, false⟩, ⟨["b", "y"], ["y"], 2, false, false, 0, false, false⟩, ⟨["c", "z"], ["z"], 1, false, false, 0, false, false⟩]

def exRel : RelDict := [(some ["f"], [["x"], ["y"]]), (some ["g"], [["y"], ["z"]]), (none, [["x"], ["y"], ["z"]])]

example : sharedVecInfo true exRel [[["f"], ["g"]]] none exMetas = .ok ⟨8, [(none, 0), (some ["f"], 0), (some ["g"], 5)]⟩ := by decide +kernel

example : (srcVector 8 5 exRel (some ["g"]) exMetas) = [⟨["b", "y"], 5, 2⟩, ⟨["c", "z"], 7, 1⟩] := by decide +kernel

/-- Parameters: one with two source indices into a larger source, one taking its whole source, one passed by object from an object. -/
def exParams : List DerMeta :=
  [⟨["c", "p"], ["p"], 2, false, false, 7, false, true⟩, ⟨["c", "q"], ["q"], 0, true, false, 0, true, false⟩, ⟨["c", "r"], ["r"], 3, false, false, 3, false, false⟩]

example : (∀ m ∈ exParams, DeclWF m) ∧ (∀ m ∈ exParams, ¬ PboOnVector m) := by simp [exParams, DeclWF, PboOnVector]

example : sharedVecInfo true [(some ["f"], [["p"], ["r"]]), (some ["g"], [["r"]])] [[["f"], ["g"]]] (some [["c", "p"], ["c", "q"], ["c", "r"]]) exParams =
      .ok ⟨8, [(none, 0), (some ["f"], 0), (some ["g"], 5)]⟩ ∧
    tgtVector 8 0 [(some ["f"], [["p"], ["r"]]), (some ["g"], [["r"]])] (some ["f"]) [["c", "p"], ["c", "q"], ["c", "r"]] exParams =
      [⟨["c", "p"], 0, 2⟩, ⟨["c", "r"], 2, 3⟩] := by decide +kernel

/-- C53 fails for parameters: a parameter passed by object that is connected to an ordinary source is not counted in the shared storage but takes room in the vectors. First, the vectors of two
variables of interest of one group overlap; second, in the vector for everything the parameter that follows has no cell at all. -/
theorem C53_params_refuted :
    let p : DerMeta := ⟨["c", "p"], ["p"], 0, true, false, 2, false, false⟩
    let q : DerMeta := ⟨["c", "q"], ["q"], 2, false, false, 2, false, false⟩
    let owned : List Path := [["c", "p"], ["c", "q"]]
    let rel : RelDict := [(some ["f"], [["p"], ["q"]]), (some ["g"], [["q"]]), (none, [["p"], ["q"]])]
    (DeclWF p ∧ DeclWF q) ∧
    (sharedVecInfo true rel [[["f"], ["g"]]] (some owned) [p, q] = .ok ⟨4, [(none, 0), (some ["f"], 0), (some ["g"], 2)]⟩ ∧
      ∃ c ∈ tgtVector 4 0 rel (some ["f"]) owned [p, q], ∃ d ∈ tgtVector 4 2 rel (some ["g"]) owned [p, q], ¬ Apart c d) ∧
    (sharedVecInfo true rel [[["f"]]] (some owned) [p, q] = .ok ⟨2, [(none, 0), (some ["f"], 0)]⟩ ∧
      tgtVector 2 0 rel none owned [p, q] = [⟨["c", "q"], 2, 0⟩]) := by
  refine ⟨by simp [DeclWF], ⟨by decide +kernel, ⟨["c", "q"], 2, 2⟩, by decide +kernel, ⟨["c", "q"], 2, 2⟩, by decide +kernel, ?_⟩, by decide +kernel, by decide +kernel⟩
  intro h
  exact h 2 (by simp)

/-! ### Grouping of the variables of interest -/

theorem oiName_fold (set : List Path) (vs : List Path) : ∀ (acc rem : List Path), vs.Nodup →
    vs.foldlM (oiName set) (acc, rem) =
      if ∀ v ∈ vs, v ∈ set → v ∈ rem then .ok (acc ++ vs.filter (fun v => decide (v ∈ set)), rem.filter fun x => decide (¬ (x ∈ vs ∧ x ∈ set)))
      else .error .KeyError := by
  induction vs with
  | nil => intro acc rem _; simp [pure, Except.pure]
  | cons a vs ih =>
    intro acc rem hn
    obtain ⟨ha, hn⟩ := List.nodup_cons.1 hn
    rw [List.foldlM_cons]
    unfold oiName
    by_cases hs : a ∈ set
    · by_cases hr : a ∈ rem
      · simp only [hs, hr, if_true, bind, Except.bind]
        show vs.foldlM (oiName set) _ = _
        rw [ih _ _ hn]
        have e : (∀ v ∈ vs, v ∈ set → v ∈ rem.filter (fun x => decide (x ≠ a))) ↔ (∀ v ∈ a :: vs, v ∈ set → v ∈ rem) := by
          simp only [List.mem_filter, List.mem_cons, decide_eq_true_eq, ne_eq]
          constructor
          · intro h v hv hvs
            rcases hv with rfl | hv
            · exact hr
            · exact (h v hv hvs).1
          · intro h v hv hvs
            exact ⟨h v (.inr hv) hvs, fun e => ha (e ▸ hv)⟩
        simp only [e]
        split
        · rw [List.filter_filter]
          simp only [List.filter_cons, hs, decide_true, if_true, List.append_assoc, List.singleton_append, Except.ok.injEq, Prod.mk.injEq, true_and]
          apply List.filter_congr
          intro x _
          by_cases hx : x = a
          · subst hx; simp [hs]
          · simp [hx]
        · rfl
      · simp only [hs, hr, if_true, if_false, bind, Except.bind]
        rw [if_neg]
        intro h
        exact hr (h a (by simp) hs)
    · simp only [hs, if_false, bind, Except.bind]
      show vs.foldlM (oiName set) _ = _
      rw [ih _ _ hn]
      have e : (∀ v ∈ vs, v ∈ set → v ∈ rem) ↔ (∀ v ∈ a :: vs, v ∈ set → v ∈ rem) := by
        simp [hs]
      simp only [e]
      split
      · simp only [List.filter_cons, hs, decide_false, Bool.false_eq_true, if_false, Except.ok.injEq, Prod.mk.injEq, true_and]
        apply List.filter_congr
        intro x _
        by_cases hx : x = a
        · subst hx; simp [hs]
        · simp [hx]
      · rfl

/-- No name is in two of the sets. -/
def SetsApart (vois : List Path) (sets : List (List Path)) : Prop := sets.Pairwise fun s t => ∀ v ∈ vois, v ∈ s → v ∉ t

theorem oiSet_fold (vois : List Path) (hn : vois.Nodup) (sets : List (List Path)) : ∀ (prev acc : List (List Path)),
    (((∀ s ∈ sets, ∀ v ∈ vois, v ∈ s → ∀ t ∈ prev, v ∉ t) ∧ SetsApart vois sets) →
      sets.foldlM (oiSet vois) (acc, vois.filter fun v => decide (∀ t ∈ prev, v ∉ t)) =
        .ok (acc ++ sets.map (fun s => vois.filter fun v => decide (v ∈ s)), vois.filter fun v => decide (∀ t ∈ prev ++ sets, v ∉ t))) ∧
    (¬ ((∀ s ∈ sets, ∀ v ∈ vois, v ∈ s → ∀ t ∈ prev, v ∉ t) ∧ SetsApart vois sets) →
      sets.foldlM (oiSet vois) (acc, vois.filter fun v => decide (∀ t ∈ prev, v ∉ t)) = .error .KeyError) := by
  induction sets with
  | nil => intro prev acc; simp [pure, Except.pure, SetsApart]
  | cons s sets ih =>
    intro prev acc
    rw [List.foldlM_cons]
    unfold oiSet
    simp only
    rw [oiName_fold s vois _ _ hn]
    by_cases hc : ∀ v ∈ vois, v ∈ s → v ∈ vois.filter fun v => decide (∀ t ∈ prev, v ∉ t)
    · rw [if_pos hc]
      simp only [bind, Except.bind, pure, Except.pure, List.nil_append]
      have e : List.filter (fun x => decide ¬(x ∈ vois ∧ x ∈ s)) (List.filter (fun v => decide (∀ t ∈ prev, v ∉ t)) vois) =
          vois.filter fun v => decide (∀ t ∈ prev ++ [s], v ∉ t) := by
        rw [List.filter_filter]
        apply List.filter_congr
        intro x hx
        rw [← Bool.decide_and]
        congr 1
        simp only [List.mem_append, List.mem_singleton, hx, true_and, eq_iff_iff]
        constructor
        · rintro ⟨h1, h2⟩ t (ht | rfl)
          · exact h2 t ht
          · exact h1
        · intro h
          exact ⟨h s (.inr rfl), fun t ht => h t (.inl ht)⟩
      rw [e]
      have hs : ∀ v ∈ vois, v ∈ s → ∀ t ∈ prev, v ∉ t := by
        intro v hv hvs
        have := hc v hv hvs
        simp only [List.mem_filter, decide_eq_true_eq] at this
        exact this.2
      have iff : ((∀ s' ∈ s :: sets, ∀ v ∈ vois, v ∈ s' → ∀ t ∈ prev, v ∉ t) ∧ SetsApart vois (s :: sets)) ↔
          ((∀ s' ∈ sets, ∀ v ∈ vois, v ∈ s' → ∀ t ∈ prev ++ [s], v ∉ t) ∧ SetsApart vois sets) := by
        unfold SetsApart
        rw [List.pairwise_cons]
        constructor
        · rintro ⟨h1, h2, h3⟩
          refine ⟨?_, h3⟩
          intro s' hs' v hv hvs t ht
          rcases List.mem_append.1 ht with ht | ht
          · exact h1 s' (by simp [hs']) v hv hvs t ht
          · rw [List.mem_singleton] at ht
            subst ht
            exact fun hvt => h2 s' hs' v hv hvt hvs
        · rintro ⟨h1, h3⟩
          refine ⟨?_, ?_, h3⟩
          · intro s' hs' v hv hvs t ht
            rcases List.mem_cons.1 hs' with rfl | hs'
            · exact hs v hv hvs t ht
            · exact h1 s' hs' v hv hvs t (by simp [ht])
          · intro s' hs' v hv hvs hvs'
            exact h1 s' hs' v hv hvs' s (by simp) hvs
      rw [iff]
      obtain ⟨i1, i2⟩ := ih (prev ++ [s]) (acc ++ [vois.filter fun v => decide (v ∈ s)])
      constructor
      · intro h
        show sets.foldlM (oiSet vois) _ = _
        rw [i1 h]
        simp only [List.append_assoc, List.singleton_append, List.map_cons]
      · intro h
        show sets.foldlM (oiSet vois) _ = _
        rw [i2 h]
    · rw [if_neg hc]
      simp only [bind, Except.bind, implies_true, and_true]
      intro h
      exfalso
      apply hc
      intro v hv hvs
      simp only [List.mem_filter, decide_eq_true_eq]
      exact ⟨hv, h.1 s (by simp) v hv hvs⟩

/-- The groups cover the variables of interest exactly once, so the hypothesis of the theorems above holds; two of them are in one group iff they were declared together. A name in two declared sets is
an error. -/
theorem C53_groups (sets : List (List Path)) (vois : List Path) (hn : vois.Nodup) :
    ((∃ gs, ofInterest sets vois = .ok gs) ↔ SetsApart vois sets) ∧
    ∀ gs, ofInterest sets vois = .ok gs → gs.flatten.Perm vois ∧ gs.flatten.Nodup ∧
      ∀ a ∈ vois, ∀ b ∈ vois, a ≠ b → ((∃ g ∈ gs, a ∈ g ∧ b ∈ g) ↔ ∃ s ∈ sets, a ∈ s ∧ b ∈ s) := by
  obtain ⟨h1, h2⟩ := oiSet_fold vois hn sets [] []
  have e0 : (vois.filter fun v => decide (∀ t ∈ ([] : List (List Path)), v ∉ t)) = vois := by simp
  rw [e0] at h1 h2
  simp only [List.not_mem_nil, false_imp_iff, implies_true, true_and, List.nil_append] at h1 h2
  unfold ofInterest
  by_cases hs : SetsApart vois sets
  · rw [h1 hs]
    simp only [bind, Except.bind, pure, Except.pure, hs, iff_true, Except.ok.injEq, exists_eq', true_and]
    intro gs hgs
    have hmem : ∀ g, g ∈ gs ↔ (∃ s ∈ sets, (vois.filter fun v => decide (v ∈ s)) = g ∧ g ≠ []) ∨ ∃ v ∈ vois, (∀ t ∈ sets, v ∉ t) ∧ g = [v] := by
      intro g
      rw [← hgs]
      simp only [List.mem_append, List.mem_filter, List.mem_map, decide_eq_true_eq, Bool.not_eq_true', List.isEmpty_eq_false_iff]
      constructor
      · rintro (⟨⟨s, hs, rfl⟩, h⟩ | ⟨v, ⟨hv, -, h⟩, rfl⟩)
        · exact .inl ⟨s, hs, rfl, h⟩
        · exact .inr ⟨v, hv, h, rfl⟩
      · rintro (⟨s, hs, rfl, h⟩ | ⟨v, hv, h, rfl⟩)
        · exact .inl ⟨⟨s, hs, rfl⟩, h⟩
        · exact .inr ⟨v, ⟨hv, hv, h⟩, rfl⟩
    have hnd : gs.flatten.Nodup := by
      rw [← hgs, List.nodup_flatten]
      constructor
      · intro g hg
        rw [hgs, hmem] at hg
        rcases hg with ⟨s, -, rfl, -⟩ | ⟨v, -, -, rfl⟩
        · exact hn.filter _
        · simp
      · rw [List.pairwise_append]
        refine ⟨?_, ?_, ?_⟩
        · apply List.Pairwise.filter
          rw [List.pairwise_map]
          refine hs.imp ?_
          intro s t hst v hv hv'
          simp only [List.mem_filter, decide_eq_true_eq] at hv hv'
          exact hst v hv.1 hv.2 hv'.2
        · rw [List.pairwise_map]
          apply List.Pairwise.filter
          refine hn.imp ?_
          intro a b hab
          simp [Ne.symm hab]
        · intro g hg g' hg'
          simp only [List.mem_filter, List.mem_map, decide_eq_true_eq] at hg hg'
          obtain ⟨⟨s, hs', rfl⟩, -⟩ := hg
          obtain ⟨v, ⟨-, -, hv⟩, rfl⟩ := hg'
          intro x hx hx'
          simp only [List.mem_filter, decide_eq_true_eq] at hx
          rw [List.mem_singleton] at hx'
          subst hx'
          exact hv s hs' hx.2
    refine ⟨?_, hnd, ?_⟩
    · rw [List.perm_ext_iff_of_nodup hnd hn]
      intro v
      rw [List.mem_flatten]
      constructor
      · rintro ⟨g, hg, hv⟩
        rcases (hmem g).1 hg with ⟨s, -, rfl, -⟩ | ⟨w, hw, -, rfl⟩
        · exact (List.mem_filter.1 hv).1
        · rw [List.mem_singleton] at hv; exact hv ▸ hw
      · intro hv
        by_cases hex : ∃ t ∈ sets, v ∈ t
        · obtain ⟨t, ht, hvt⟩ := hex
          have hm : v ∈ vois.filter fun v => decide (v ∈ t) := by simp [hv, hvt]
          exact ⟨_, (hmem _).2 (.inl ⟨t, ht, rfl, List.ne_nil_of_mem hm⟩), hm⟩
        · push Not at hex
          exact ⟨[v], (hmem _).2 (.inr ⟨v, hv, hex, rfl⟩), by simp⟩
    · intro a ha b hb hab
      constructor
      · rintro ⟨g, hg, hag, hbg⟩
        rcases (hmem g).1 hg with ⟨s, hs', rfl, -⟩ | ⟨w, hw, -, rfl⟩
        · simp only [List.mem_filter, decide_eq_true_eq] at hag hbg
          exact ⟨s, hs', hag.2, hbg.2⟩
        · rw [List.mem_singleton] at hag hbg
          exact absurd (hag.trans hbg.symm) hab
      · rintro ⟨s, hs', has, hbs⟩
        have hm : a ∈ vois.filter fun v => decide (v ∈ s) := by simp [ha, has]
        exact ⟨_, (hmem _).2 (.inl ⟨s, hs', rfl, List.ne_nil_of_mem hm⟩), hm, by simp [hb, hbs]⟩
  · rw [h2 hs]
    simp [bind, Except.bind, hs]

example : ofInterest [[["c"], ["a"]], [["z"]]] [["a"], ["b"], ["c"]] = .ok [[["a"], ["c"]], [["b"]]] := by decide +kernel
example : ofInterest [[["c"], ["a"]], [["c"]]] [["a"], ["b"], ["c"]] = .error .KeyError := by decide +kernel

/-- A name that is an objective and a constraint as well appears twice in the list: if it was declared for parallel derivatives the grouping fails with `KeyError`. -/
theorem finding_C53_twice : ofInterest [[["c"], ["a"]]] [["a"], ["c"], ["a"]] = .error .KeyError := by decide +kernel
