import Verif.Model.PyOpt
import Verif.Spec.Relevance
import Mathlib.Analysis.Calculus.Deriv.Basic
/-! Specification of the pyOptSparse driver: what the optimizer is told against what the model computes. -/
namespace OpenMDAO

variable {K : Type}

/-- The matrix a `coo` triple stands for: entries at the same place add up. -/
def Coo.dense [AddCommMonoid K] (c : Coo K) (i j : Nat) : K :=
  (((c.row.zip c.col).zip c.data).map fun e => if e.1.1 = i ∧ e.1.2 = j then e.2 else 0).sum

/-- Shape and entries of a block. -/
def SensBlock.shape : SensBlock K → Nat × Nat
  | .dense m => (m.m, m.n)
  | .coo c => (c.nrow, c.ncol)

/-- See `shape`. -/
def SensBlock.entry [AddCommMonoid K] : SensBlock K → Nat → Nat → K
  | .dense m, i, j => m.a i j
  | .coo c, i, j => c.dense i j

/-- Two blocks describe the same matrix. -/
def SensBlock.Same [AddCommMonoid K] (a b : SensBlock K) : Prop := a.shape = b.shape ∧ ∀ i < a.shape.1, ∀ j < a.shape.2, a.entry i j = b.entry i j

/-- The block of the derivatives of a response with respect to a design variable. -/
def SensDict.block (s : SensDict K) (f d : String) : Option (SensBlock K) := (s.lookup f).bind fun b => b.lookup d

/-- A block that may be stored with the columns `e.2` only: it is dense, the kept columns are inside it and all other columns are zero. -/
def KeptColumns [Zero K] (s : SensDict K) (e : (String × String) × List Nat) : Prop :=
  ∃ m : TMat K, SensDict.block s e.1.1 e.1.2 = some (.dense m) ∧ e.2.Nodup ∧ (∀ j ∈ e.2, j < m.n) ∧ ∀ i < m.m, ∀ j < m.n, j ∉ e.2 → m.a i j = 0

/-- Both hold the same blocks, as matrices. -/
def SameBlocks [AddCommMonoid K] (s s' : SensDict K) : Prop :=
  ∀ f d, match SensDict.block s f d with
    | some b => ∃ b', SensDict.block s' f d = some b' ∧ b'.Same b
    | none => SensDict.block s' f d = none

/-- The entry of the source variable that entry `j` of the design variable stands for. -/
def dvPos (dvIdx : Option (List Nat)) (j : Nat) : Nat :=
  match dvIdx with
  | none => j
  | some d => d.getD j 0

/-- Number of entries of the design variable; `n` is the size of the source variable. -/
def dvSize (dvIdx : Option (List Nat)) (n : Nat) : Nat :=
  match dvIdx with
  | none => n
  | some d => d.length

/-- The response depends on the design variable only through the parameters that lie between them: it is the same for two values of the source variable which all those parameters read alike. -/
def DependsVia {ρ : Type} (between : Path → Prop) (conns : IdxConns) (src : Path) (n : Nat) (g : (Nat → ℝ) → ρ) : Prop :=
  ∀ x y : Nat → ℝ, (∀ c ∈ conns, c.2.1 = src → between c.1 → match c.2.2 with | some idx => ∀ i ∈ idx, x i = y i | none => ∀ i < n, x i = y i) → g x = g y

/-- The value is at least `tol` beyond the bound on the feasible side: the lower bound is exceeded, or the value is below the upper bound. -/
def ConEntry.FarFromLower [Field K] [LinearOrder K] (e : ConEntry K) (tol : K) : Prop := ∀ l, e.lower = some l → l + tol < e.val

/-- See `FarFromLower`. -/
def ConEntry.FarFromUpper [Field K] [LinearOrder K] (e : ConEntry K) (tol : K) : Prop := ∀ u, e.upper = some u → e.val < u - tol

/-- What the optimizer takes as satisfied at the design `z`: for a linear constraint the product of the matrix with the design has to be within the bounds, otherwise the value `v` from the callback. -/
def ConGroup.Satisfied {κ D : Type} [Field K] [LinearOrder K] (c : ConGroup κ D K) (z : D → K) (v : κ → K) : Prop :=
  let w : κ → K := match c.linear with
    | some (wrt, jac) => fun i => (wrt.map fun d => jac i d * z d).sum
    | none => v
  ∀ i, (∀ l, c.lower i = some l → l ≤ w i) ∧ ∀ u, c.upper i = some u → w i ≤ u

/-- The constraint of the user: `equals`, or `lower` and `upper`. -/
def PyConMeta.Holds {κ : Type} [Field K] [LinearOrder K] (m : PyConMeta κ K) (v : κ → K) : Prop :=
  match m.equals with
  | some e => ∀ i, v i = e i
  | none => ∀ i, (∀ l, m.lower i = some l → l ≤ v i) ∧ ∀ u, m.upper i = some u → v i ≤ u

/-- `dsg` reads the design variables of a state, and setting one changes that one only. -/
structure SetsDesign {S V F : Type} (M : OptModel S V F) (dsg : S → String → V) : Prop where
  same : ∀ {n v s s'}, M.setDv n v s = .ok s' → dsg s' n = v
  other : ∀ {n v s s' k}, M.setDv n v s = .ok s' → k ≠ n → dsg s' k = dsg s k

/-- The design variables are set one after the other, without error. -/
inductive DesignSet {S V F : Type} (M : OptModel S V F) (dv : List (String × V)) : List String → S → S → Prop
  | nil {s} : DesignSet M dv [] s s
  | cons {n v rest s s' s1} : dv.lookup n = some v → M.setDv n v s = .ok s' → DesignSet M dv rest s' s1 → DesignSet M dv (n :: rest) s s1

end OpenMDAO
