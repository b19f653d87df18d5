import Verif.Physics.FormFactors.SeriesValues
/-!
# Auxiliary quantities: the implementations registered by the library, the defaults of the configuration and the selection

Importing the physics modules runs a sequence of constructor calls of `AuxiliaryQuantity` and `Implementation`; which implementation is used for a
prediction is read from the configuration.  The functions of the series parametrisations of the form factors are those of `FormFactors/Series.lean`, all
others are a parameter of the model.
-/
set_option linter.unusedVariables false
namespace Verif.Auxiliary
open Verif.Py Verif.FormFactors Verif.Angular

/-- The argument `t0` given to the BCL functions.  /repo/flavio/physics/bdecays/formfactors/b_p/btop.py:28-31,57-69. -/
inductive Cut where
  | default
  | tm
  | zero
  deriving DecidableEq

/-- The value of that argument.  /repo/flavio/physics/bdecays/formfactors/common.py:7-30. -/
noncomputable def Cut.t0 : Cut → T0
  | .default => .none
  | .tm => .tm
  | .zero => .num 0

/-- The function of an implementation: the module function with the keyword arguments bound by `ff_function`; `other` are the functions that are not
modelled here.  /repo/flavio/physics/bdecays/formfactors/b_p/btop.py:9-10, b_v/btov.py:9-10, lambdab_12/lambdab.py:7-8,
/repo/flavio/physics/ddecays/formfactors/__init__.py:12-13. -/
inductive Fn where
  | bszP (process : String) (n : ℕ)
  | bclP (process : String) (n : ℕ) (t0 : Cut)
  | bclIW (process : String) (n : ℕ) (t0 : Cut)
  | lmvd (process : String) (n : ℕ)
  | bszV (process : String) (n : ℕ)
  | sseV (process : String) (n : ℕ)
  | lambdab (process : String) (n : ℕ)
  | bszD (process : String) (n : ℕ)
  | bclD (process : String) (n : ℕ)
  | other (function : String) (process : String)
  deriving DecidableEq

/-- One constructor call.  /repo/flavio/classes.py:726-728, 783-791. -/
inductive Call where
  | aux (name : String) (arguments : Option (List String))
  | impl (name quantity : String) (fn : Fn)
  deriving DecidableEq

/-- `processes_H2L` and `processes_H2H` of `B → P`.  /repo/flavio/physics/bdecays/formfactors/b_p/btop.py:5-6. -/
def lightP : List String := ["B->K", "B->pi"]
/-- `processes_H2H` of `B → P`.  /repo/flavio/physics/bdecays/formfactors/b_p/btop.py:6. -/
def heavyP : List String := ["B->D"]

/-- The value the loop variable `quantity` has after the first loop.  /repo/flavio/physics/bdecays/formfactors/b_p/btop.py:13-14. -/
def lastQuantity (ps : List String) : String := match ps.getLast? with
  | some p => p ++ " form factor"
  | none => ""

/-- `btop.py`: the second loop does not assign `quantity` anew.  /repo/flavio/physics/bdecays/formfactors/b_p/btop.py:13-76. -/
def btop : List Call :=
  (lightP ++ heavyP).flatMap (fun p =>
    let q := p ++ " form factor"
    [.aux q (some ["q2"]),
     .impl (p ++ " BSZ3") q (.bszP p 3),
     .impl (p ++ " BCL3") q (.bclP p 3 .default),
     .impl (p ++ " BCL3 t0=0") q (.bclP p 3 .zero),
     .impl (p ++ " BCL4") q (.bclP p 4 .default),
     .impl (p ++ " BCL4-LMVD") q (.lmvd p 4),
     .impl (p ++ " BCL3-IW") q (.bclIW p 3 .default),
     .impl (p ++ " BCL4-IW") q (.bclIW p 4 .default),
     .impl (p ++ " BCL3-IW-t0max") q (.bclIW p 3 .tm),
     .impl (p ++ " BCL4-IW-t0max") q (.bclIW p 4 .tm)])
  ++ heavyP.map (fun p => .impl (p ++ " CLN") (lastQuantity (lightP ++ heavyP)) (.other "b_p.cln.ff" p))

/-- `processes_H2L` of `B → V`.  /repo/flavio/physics/bdecays/formfactors/b_v/btov.py:5. -/
def lightV : List String := ["B->K*", "B->rho", "B->omega", "Bs->phi", "Bs->K*"]
/-- `processes_H2H` of `B → V`.  /repo/flavio/physics/bdecays/formfactors/b_v/btov.py:6. -/
def heavyV : List String := ["B->D*"]

/-- `btov.py`.  /repo/flavio/physics/bdecays/formfactors/b_v/btov.py:13-46. -/
def btov : List Call :=
  (lightV ++ heavyV).flatMap (fun p =>
    let q := p ++ " form factor"
    [.aux q (some ["q2"]), .impl (p ++ " BSZ2") q (.bszV p 2), .impl (p ++ " BSZ3") q (.bszV p 3), .impl (p ++ " SSE") q (.sseV p 2)])
  ++ heavyV.flatMap (fun p => [.impl (p ++ " CLN") (lastQuantity (lightV ++ heavyV)) (.other "b_v.cln.ff" p),
      .impl (p ++ " CLNexp-IW") (lastQuantity (lightV ++ heavyV)) (.other "b_v.clnexp.ff" p)])

/-- `b_gamma`.  /repo/flavio/physics/bdecays/formfactors/b_gamma/bgamma.py:24-29. -/
def bgamma : List Call :=
  [.aux "B->gamma form factor" (some ["q2"]), .impl "B->gamma KM" "B->gamma form factor" (.other "b_gamma.ff" "B->gamma")]

/-- `lambdab_12` and `lambdab_32`; both series implementations are registered with `n=2`.
/repo/flavio/physics/bdecays/formfactors/lambdab_12/lambdab.py:10-23, lambdab_32/lambdab.py:13-28. -/
def lambdabs : List Call :=
  (["Lambdab->Lambda"].flatMap fun p =>
    let q := p ++ " form factor"
    [.aux q (some ["q2"]), .impl (p ++ " SSE2") q (.lambdab p 2), .impl (p ++ " SSE3") q (.lambdab p 2)])
  ++ (["Lambdab->Lambda(1520)"].flatMap fun p =>
    let q := p ++ " form factor"
    [.aux q (some ["q2"]), .impl (p ++ " MCN") q (.other "QuarkModel_MCN.ff_equiv" p),
     .impl (p ++ " LatticeQCD") q (.other "LatticeQCD.ff_equiv" p)])

/-- `D → P`.  /repo/flavio/physics/ddecays/formfactors/__init__.py:9-35. -/
def dtop : List Call :=
  ["D->pi", "D->K"].flatMap fun p =>
    let q := p ++ " form factor"
    [.aux q (some ["q2"]), .impl (p ++ " BSZ2") q (.bszD p 2), .impl (p ++ " BCL2") q (.bclD p 2), .impl (p ++ " BSZ3") q (.bszD p 3)]

/-- `K → π` and the CKM matrix.  /repo/flavio/physics/kdecays/formfactors.py:55-61, /repo/flavio/physics/ckm.py:39-56. -/
def ckmK : List Call :=
  [.aux "CKM matrix" none, .impl "Standard" "CKM matrix" (.other "_func_standard" ""), .impl "Tree" "CKM matrix" (.other "_func_tree" ""),
   .impl "Wolfenstein" "CKM matrix" (.other "_func_wolfenstein" ""), .impl "beta gamma" "CKM matrix" (.other "_func_beta_gamma" ""),
   .aux "K->pi form factor" (some ["q2"]), .impl "K->pi dispersive + pole" "K->pi form factor" (.other "ff_dispersive_pole" "K->pi")]

/-- Spectator scattering.  /repo/flavio/physics/bdecays/bvll/nonfactorizable.py:44-62. -/
def nonfact : List Call :=
  [("B0", "K*0"), ("B+", "K*+"), ("B0", "rho0"), ("B+", "rho+"), ("Bs", "phi"), ("Bs", "K*0")].flatMap fun had =>
    let p := had.1 ++ "->" ++ had.2 ++ "ll"
    let q := p ++ " spectator scattering"
    [.aux q (some ["q2", "cp_conjugate"]), .impl (p ++ " QCDF") q (.other "qcdf" p),
     .impl (p ++ " QCDF interpolated") q (.other "qcdf_interpolate" p)]

/-- Subleading effects for `B → V`.  /repo/flavio/physics/bdecays/bvll/subleading.py:100-134. -/
def subV : List Call :=
  ([("B0", "K*0"), ("B+", "K*+"), ("Bs", "phi")].flatMap fun had =>
    let p := had.1 ++ "->" ++ had.2 ++ "ll"
    let q := p ++ " subleading effects at low q2"
    [.aux q (some ["q2", "cp_conjugate"]), .impl (p ++ " deltaC7, 7p polynomial") q (.other "deltaC7C7p" p)])
  ++ ([("B0", "K*0"), ("B+", "K*+"), ("Bs", "phi")].flatMap fun had =>
    let p := had.1 ++ "->" ++ had.2 ++ "ll"
    let q := p ++ " subleading effects at high q2"
    [.aux q (some ["q2", "cp_conjugate"]), .impl (p ++ " deltaC9 shift") q (.other "deltaC9 constant" p)])

/-- Subleading effects for `B → P`; the loop over the leptons registers the same names three times.
/repo/flavio/physics/bdecays/bpll_subleading.py:87-125. -/
def subP : List Call :=
  ([("B0", "K0"), ("B+", "K+")].flatMap fun had =>
    let p := had.1 ++ "->" ++ had.2 ++ "ll"
    let q := p ++ " subleading effects at low q2"
    [.aux q (some ["q2", "cp_conjugate"]), .impl (p ++ " deltaC7 polynomial") q (.other "deltaC7" p),
     .impl (p ++ " deltaC9 polynomial") q (.other "deltaC9" p)])
  ++ ([("B0", "K0"), ("B+", "K+")].flatMap fun had => ["e", "mu", "tau"].flatMap fun _ =>
    let p := had.1 ++ "->" ++ had.2 ++ "ll"
    let q := p ++ " subleading effects at high q2"
    [.aux q (some ["q2", "cp_conjugate"]), .impl (p ++ " deltaC9 shift") q (.other "deltaC9 constant" p)])

/-- Subleading effects for `Λb → Λ`.  /repo/flavio/physics/bdecays/lambdablambdall_subleading.py:92-118. -/
def subL : List Call :=
  [.aux "Lambdab->Lambdall subleading effects at low q2" (some ["q2", "cp_conjugate"]),
   .impl "Lambdab->Lambdall deltaC7 polynomial" "Lambdab->Lambdall subleading effects at low q2" (.other "deltaC7" "Lambdab->Lambdall"),
   .aux "Lambdab->Lambdall subleading effects at high q2" (some ["q2", "cp_conjugate"]),
   .impl "Lambdab->Lambdall deltaC9 shift" "Lambdab->Lambdall subleading effects at high q2" (.other "deltaC9 constant" "Lambdab->Lambdall")]

/-- All constructor calls, module by module (the order of the modules does not matter for anything proved).
/repo/flavio/physics/bdecays/formfactors/__init__.py:3-7. -/
def calls : List Call := btov ++ btop ++ bgamma ++ lambdabs ++ dtop ++ ckmK ++ nonfact ++ subV ++ subP ++ subL

/-- The two class registries.  /repo/flavio/classes.py:721-743, 769-791. -/
structure Reg where
  aux : Dict String (Option (List String))
  impl : Dict String (String × Fn)
  deriving DecidableEq

/-- The effect of one constructor call (on an exception the new `Implementation` stays registered without attributes, which is not modelled:
the exception propagates).  /repo/flavio/classes.py:726-728, 783-791. -/
def step (r : Reg) : Call → Except PyErr Reg
  | .aux n a => .ok { r with aux := r.aux.set n a }
  | .impl n q f => if (r.aux.get? q).isSome then .ok { r with impl := r.impl.set n (q, f) } else .error .valueError

/-- Importing the modules.  /repo/flavio/physics/__init__.py:1-15. -/
def load (l : List Call) : Except PyErr Reg := l.foldlM step ⟨[], []⟩

/-- The section `implementation` of the configuration.  /repo/flavio/data/config.yml:93-150. -/
def defaults : Dict String String :=
  [("CKM matrix", "Tree"), ("K mixing unitarity", "ut"),
   ("B->K* form factor", "B->K* BSZ3"), ("B->rho form factor", "B->rho BSZ3"), ("B->omega form factor", "B->omega BSZ3"),
   ("Bs->K* form factor", "Bs->K* BSZ3"), ("Bs->phi form factor", "Bs->phi BSZ3"), ("B->D* form factor", "B->D* CLN"),
   ("B->K form factor", "B->K BSZ3"), ("B->D form factor", "B->D CLN"), ("B->pi form factor", "B->pi BCL4-LMVD"),
   ("B->gamma form factor", "B->gamma KM"), ("D->K form factor", "D->K BSZ3"), ("D->pi form factor", "D->pi BSZ3"),
   ("Lambdab->Lambda form factor", "Lambdab->Lambda SSE3"), ("Lambdab->Lambda(1520) form factor", "Lambdab->Lambda(1520) LatticeQCD"),
   ("K->pi form factor", "K->pi dispersive + pole"),
   ("B0->K*0ll spectator scattering", "B0->K*0ll QCDF interpolated"), ("B+->K*+ll spectator scattering", "B+->K*+ll QCDF interpolated"),
   ("Bs->phill spectator scattering", "Bs->phill QCDF interpolated"), ("Bs->K*0ll spectator scattering", "Bs->K*0ll QCDF interpolated"),
   ("B0->K*0ll subleading effects at low q2", "B0->K*0ll deltaC7, 7p polynomial"),
   ("B+->K*+ll subleading effects at low q2", "B+->K*+ll deltaC7, 7p polynomial"),
   ("Bs->phill subleading effects at low q2", "Bs->phill deltaC7, 7p polynomial"),
   ("B0->K*0ll subleading effects at high q2", "B0->K*0ll deltaC9 shift"), ("B+->K*+ll subleading effects at high q2", "B+->K*+ll deltaC9 shift"),
   ("Bs->phill subleading effects at high q2", "Bs->phill deltaC9 shift"),
   ("B0->K0ll subleading effects at low q2", "B0->K0ll deltaC9 polynomial"), ("B+->K+ll subleading effects at low q2", "B+->K+ll deltaC9 polynomial"),
   ("B0->K0ll subleading effects at high q2", "B0->K0ll deltaC9 shift"), ("B+->K+ll subleading effects at high q2", "B+->K+ll deltaC9 shift"),
   ("Lambdab->Lambdall subleading effects at low q2", "Lambdab->Lambdall deltaC7 polynomial"),
   ("Lambdab->Lambdall subleading effects at high q2", "Lambdab->Lambdall deltaC9 shift")]

/-- What an implementation returns: the form factors of the three kinds, or something else. (Specification.) -/
inductive Val (O : Type) where
  | P (f : FFP)
  | V (f : FFV)
  | L (f : FFL)
  | other (o : O)

/-- Calling the function of an implementation at `q2` (only the returned form factors, not the changed parameters).
/repo/flavio/physics/bdecays/formfactors/b_p/btop.py:9-10. -/
noncomputable def run {O : Type} (oth : String → String → Par → ℝ → Except PyErr O) (par : Par) (q2 : ℝ) : Fn → Except PyErr (Val O)
  | .bszP p n => (bszFF processP p q2 par n .none).map .P
  | .bclP p n t => (bclFF p q2 par n t.t0).map .P
  | .bclIW p n t => (bclFFIW p q2 par n t.t0).map .P
  | .lmvd p n => (lmvdFF p q2 par n .none).map .P
  | .bszV p n => (bszVFF p q2 par n).map fun r => .V r.1
  | .sseV p n => (sseFF p q2 par n).map .V
  | .lambdab p n => (lambdabFF p q2 par n).map fun r => .L r.1
  | .bszD p n => (bszFF processD p q2 par n .none).map .P
  | .bclD p n => (bclFFD p q2 par n .none).map .P
  | .other f p => (oth f p par q2).map .other

/-- `AuxiliaryQuantity[quantity].prediction(par_dict, wc_obj, q2)`: the three look-ups, then the function.
/repo/flavio/classes.py:730-743, 803-805. -/
noncomputable def prediction {O : Type} (oth : String → String → Par → ℝ → Except PyErr O) (reg : Reg) (cfg : Dict String String) (quantity : String)
    (par : Par) (q2 : ℝ) : Except PyErr (Val O) :=
  if (reg.aux.get? quantity).isNone then .error .keyError else
  match cfg.get? quantity with
  | none => .error .keyError
  | some i => match reg.impl.get? i with
    | none => .error .keyError
    | some (_, f) => run oth par q2 f

end Verif.Auxiliary
