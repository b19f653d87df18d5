import Verif.Measurements.Load
import Verif.Constraints.Lemmas
import Mathlib.Analysis.Matrix.PosDef
import Mathlib.Analysis.Matrix.Spectrum
/-!
# Model of `flavio.parameters`: reading parameter values

Distribution objects live on a heap; a `Constraints` state (`Verif.Constraints`) refers to them. The functions return the
state reached together with the exception, if one was raised: what was read before an exception stays.
`yaml.safe_load` and the PDG table (package `particle`) are inputs. Floats are real numbers.
-/
set_option linter.unusedSectionVars false
set_option linter.unusedSimpArgs false
set_option linter.unusedVariables false
namespace Verif.Parameters
open Verif.Py Verif.Constraints Verif.Measurements

/-- The distributions attached to parameters: those made by `set_constraint`, a multivariate normal (central values,
covariance), a normal (central value, standard deviation) or an asymmetric normal one (central value, right and left
deviation).  /repo/flavio/parameters.py:32-36,73,259-264. -/
inductive PD (D : Type) where
  | base (d : D)
  | mvn (n : Nat) (central : Fin n → ℝ) (cov : Mat n ℝ)
  | normal (c s : ℝ)
  | asym (c r l : ℝ)

/-- The names of the existing `Parameter` instances, the constraints, and the heap of distribution objects.
/repo/flavio/parameters.py:29-36. -/
structure PS (D : Type) where
  reg : List String
  st : CState String Nat
  heap : List (PD D)

variable {D W α : Type}

/-- A new `ParameterConstraints` instance.  /repo/flavio/parameters.py:271. -/
def PS.init (reg : List String) : PS D := ⟨reg, CState.init, []⟩

/-- Create a distribution and call `add_constraint`.  /repo/flavio/parameters.py:73,259-264. -/
def PS.add (s : PS D) (ps : List String) (d : PD D) : PS D :=
  ⟨s.reg, addConstraint s.st ps s.heap.length, s.heap ++ [d]⟩

/-- A `for` loop whose body may raise.  /repo/flavio/parameters.py:31,47,244. -/
def loop (f : PS D → α → PS D × Option PyErr) : PS D → List α → PS D × Option PyErr
  | s, [] => (s, none)
  | s, a :: l =>
    match f s a with
    | (s', none) => loop f s' l
    | (s', some e) => (s', some e)

/-- The body of the loop of `_read_yaml_object_values`.  `conv` turns the value (string, number or dictionary) into a
distribution, or raises (`set_constraint`, C10).  /repo/flavio/parameters.py:31-36. -/
def readValue (conv : W → Except PyErr D) (s : PS D) (e : String × W) : PS D × Option PyErr :=
  if e.1 ∈ s.reg then
    match conv e.2 with
    | .ok d => (s.add [e.1] (.base d), none)
    | .error x => (s, some x)
  else (s, some .keyError)

/-- `_read_yaml_object_values`, `read_file_values`.  /repo/flavio/parameters.py:29-36,82-85. -/
def readValues (conv : W → Except PyErr D) (s : PS D) (items : List (String × W)) : PS D × Option PyErr :=
  loop (readValue conv) s items

/-! ### Correlated values -/

/-- A group: the list of dictionaries `values` (each as the list of its items) and the entry `correlation`.
/repo/flavio/parameters.py:47-51,63. -/
structure Group where
  values : List (List (String × List Char))
  corr : CorrArg ℝ

/-- The body of the inner loop: the *first* item of the dictionary; name, central value, total error.
/repo/flavio/parameters.py:51-62. -/
noncomputable def entryOf (reg : List String) (items : List (String × List Char)) : Except PyErr (String × ℚ × ℝ) :=
  match items with
  | [] => .error .indexError
  | e :: _ =>
    if e.1 ∈ reg then do
      let er ← Parse.errorsFromString e.2
      let sd ← pySqrt (squaredError er)
      .ok (e.1, er.central, sd)
    else .error .keyError

/-- `np.outer(errors, errors) * correlation`.  /repo/flavio/parameters.py:64,70. -/
noncomputable def covOf (es : List (String × ℚ × ℝ)) (c : Mat es.length ℝ) : Mat es.length ℝ :=
  fun i j => es[i].2.2 * es[j].2.2 * c i j

/-- `(correlation - np.eye(n)) * 0.99 + np.eye(n)`.  /repo/flavio/parameters.py:69. -/
noncomputable def shrink {n : Nat} (c : Mat n ℝ) : Mat n ℝ :=
  fun i j => (c i j - if i = j then 1 else 0) * 0.99 + if i = j then 1 else 0

/-- `np.all(np.linalg.eigvals(m) > 0)`; complex eigenvalues, which a symmetric matrix does not have, are ignored.
/repo/flavio/parameters.py:65,72. -/
def posEig {n : Nat} (m : Mat n ℝ) : Prop := ∀ z ∈ spectrum ℝ (Matrix.of m), 0 < z

open Classical in
/-- The end of the loop over groups: correlation, covariance, check, second attempt.  /repo/flavio/parameters.py:63-73. -/
noncomputable def finish (corr : CorrArg ℝ) (es : List (String × ℚ × ℝ)) : Except PyErr (PD D) :=
  fixCorr corr es.length >>= fun c =>
    if posEig (covOf es c) then .ok (.mvn es.length (fun i => ((es[i].2.1 : ℚ) : ℝ)) (covOf es c))
    else if posEig (covOf es (shrink c)) then
      .ok (.mvn es.length (fun i => ((es[i].2.1 : ℚ) : ℝ)) (covOf es (shrink c)))
    else .error .assertionError

/-- The body of the loop of `_read_yaml_object_values_correlated`.  /repo/flavio/parameters.py:47-73. -/
noncomputable def readGroup (s : PS D) (g : Group) : PS D × Option PyErr :=
  match g.values.mapM (entryOf s.reg) with
  | .error x => (s, some x)
  | .ok es =>
    match finish g.corr es with
    | .error x => (s, some x)
    | .ok d => (s.add (es.map (·.1)) d, none)

/-- `_read_yaml_object_values_correlated`.  /repo/flavio/parameters.py:45-73. -/
noncomputable def readCorrelated (s : PS D) (gs : List Group) : PS D × Option PyErr := loop readGroup s gs

/-! ### PDG data -/

/-- A particle of the PDG table that flavio knows: its flavio name, mass and width with errors in MeV (`None` if not known).
/repo/flavio/parameters.py:214-239. -/
structure Particle where
  name : String
  mass : Option ℝ
  massUpper : Option ℝ
  massLower : Option ℝ
  width : Option ℝ
  widthUpper : Option ℝ
  widthLower : Option ℝ

/-- `x * 1e-3`: `TypeError` for `None`.  /repo/flavio/parameters.py:221-223. -/
noncomputable def gev : Option ℝ → Except PyErr ℝ
  | some x => .ok (x * 1e-3)
  | none => .error .typeError

/-- What is read for one parameter: name, central value, right and left deviation.  /repo/flavio/parameters.py:224,239,248. -/
structure Datum where
  name : String
  central : ℝ
  right : ℝ
  left : ℝ

/-- `flavio_m`.  /repo/flavio/parameters.py:213-224. -/
noncomputable def flavioM (p : Particle) : Except PyErr Datum :=
  gev p.mass >>= fun c => gev p.massUpper >>= fun r => gev p.massLower >>= fun l => .ok ⟨"m_" ++ p.name, c, r, l⟩

/-- `{width, width_upper, width_lower} & {None, 0}` is not empty.  /repo/flavio/parameters.py:228. -/
def unknown (x : Option ℝ) : Prop := x = none ∨ x = some 0

open Classical in
/-- `flavio_tau`.  /repo/flavio/parameters.py:226-239. -/
noncomputable def flavioTau (p : Particle) : Except PyErr (Option Datum) :=
  if unknown p.width ∨ unknown p.widthUpper ∨ unknown p.widthLower then .ok none
  else gev p.width >>= fun g => gev p.widthUpper >>= fun gr => gev p.widthLower >>= fun gl =>
    .ok (some ⟨"tau_" ++ p.name, 1 / g, gr / g ^ 2, gl / g ^ 2⟩)

/-- The distribution: normal if the deviations agree; the constructors demand positive deviations.
/repo/flavio/parameters.py:259-264, /repo/flavio/statistics/probability.py:284-285. -/
noncomputable def distOf (d : Datum) : Except PyErr (PD D) :=
  if d.right = d.left then
    if d.right ≤ 0 then .error .valueError else .ok (.normal d.central d.right)
  else if d.right ≤ 0 ∨ d.left ≤ 0 then .error .valueError
  else .ok (.asym d.central d.right d.left)

/-- The body of the inner loop of `read_pdg`: an existing parameter loses its constraint, a missing one is created.
/repo/flavio/parameters.py:248-264. -/
noncomputable def pdgStep (s : PS D) (d : Datum) : PS D × Option PyErr :=
  let s' : PS D := if d.name ∈ s.reg then { s with st := removeConstraint s.st d.name } else { s with reg := s.reg ++ [d.name] }
  match distOf d with
  | .ok x => (s'.add [d.name] x, none)
  | .error e => (s', some e)

/-- The body of the outer loop.  /repo/flavio/parameters.py:244-264. -/
noncomputable def pdgParticle (s : PS D) (p : Particle) : PS D × Option PyErr :=
  match flavioM p with
  | .error e => (s, some e)
  | .ok m =>
    match flavioTau p with
    | .error e => (s, some e)
    | .ok t => loop pdgStep s (m :: t.toList)

/-- `read_pdg`; the particles come in some order (`flavio_all` is a set).  /repo/flavio/parameters.py:241-264. -/
noncomputable def readPdg (s : PS D) (ps : List Particle) : PS D × Option PyErr := loop pdgParticle s ps

/-- `PDG_PARTICLES`.  /repo/flavio/parameters.py:121-172. -/
def pdgTable : List (String × Nat) :=
  [("Bs", 531), ("Bc", 541), ("Bs*", 533), ("B*+", 523), ("B*0", 513), ("B+", 521), ("B0", 511), ("Ds", 431), ("Ds*", 433),
   ("D+", 411), ("D0", 421), ("h", 25), ("J/psi", 443), ("KL", 130), ("KS", 310), ("K*+", 323), ("K*0", 313), ("K+", 321),
   ("K0", 311), ("Lambda", 3122), ("Lambda(1520)", 3124), ("Lambdab", 5122), ("Lambdac", 4122), ("omega", 223), ("D*0", 423),
   ("D*+", 413), ("W", 24), ("Z", 23), ("e", 11), ("eta", 221), ("f0", 9010221), ("mu", 13), ("phi", 333), ("pi+", 211),
   ("pi0", 111), ("psi(2S)", 100443), ("rho+", 213), ("rho0", 113), ("t", 6), ("tau", 15), ("u", 2), ("p", 2212), ("n", 2112),
   ("Upsilon(1S)", 553), ("Upsilon(2S)", 100553), ("Upsilon(3S)", 200553), ("eta_c(1S)", 441), ("chi_c0(1P)", 10441),
   ("chi_b0(1P)", 10551), ("chi_b0(2P)", 110551)]

/-- `flavio_name`: lookup in the inverted table (later entries win).  /repo/flavio/parameters.py:173,190-192. -/
def flavioName (pdgid : Nat) : Option String := (Dict.ofPairs (pdgTable.map fun e => (e.2, e.1))).get? pdgid

/-! ## Specification -/

/-- The distribution and component in force for a parameter (what `get_central`, `get_random_all`, ... use, C01, C03).
(Specification.) -/
def PS.view (s : PS D) (p : String) : Option (Nat × PD D) :=
  match s.st.parameters.get? p with
  | none => none
  | some (i, r) => (s.heap[r]?).map fun d => (i, d)

/-- References point into the heap (true of a new instance and kept by every function here). (Specification.) -/
def PS.Good (s : PS D) : Prop := ∀ p i r, s.st.parameters.get? p = some (i, r) → r < s.heap.length

end Verif.Parameters
