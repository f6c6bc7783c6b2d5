import Verif.Model.Options
/-!
# Model of `fd_options`: `DeprecatedOptionsDictionary` (`openmdao/util/options.py:260-322`)

Warnings are not modelled.
-/
namespace OpenMDAO

/-- The option and value that `__setitem__` assigns (`options.py:283-320`). -/
def fdTarget (name : String) (value : OptVal) : String × OptVal :=
  if name = "force_fd" then ("type", .str (if value.pyEq (.bool true) then "fd" else "user"))
  else if name = "step_type" then ("step_calc", value)
  else if name = "form" ∧ value.pyEq (.str "complex_step") = true then ("type", .str "cs")
  else if name = "extra_check_partials_form" then ("check_form", value)
  else (name, value)

/-- `fd_options[name] = value` (`options.py:283-320`). -/
def fdSet (locked : Bool) (name : String) (value : OptVal) (d : OptDict) : Except PyErr OptVal × OptDict :=
  d.setItem locked (fdTarget name value).1 (fdTarget name value).2

/-- `fd_options[name]` (`options.py:270-281`). -/
def fdGet (name : String) (d : OptDict) : Except PyErr OptVal :=
  if name = "force_fd" then
    match d.getItem "type" with
    | .error e => .error e
    | .ok t => .ok (.bool (t.pyEq (.str "fd") || t.pyEq (.str "cs")))
  else d.getItem name

/-- Assignments through `fd_options`, each while the options are locked or not; exceptions are caught by the user. Serves `options.py:282-323`. -/
def fdAll (d : OptDict) (ops : List (Bool × String × OptVal)) : OptDict := ops.foldl (fun d op => (fdSet op.1 op.2.1 op.2.2 d).2) d

end OpenMDAO
