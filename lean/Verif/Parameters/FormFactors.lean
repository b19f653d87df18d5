import Verif.Parameters.Model
import Verif.Probability.Multivariate
/-!
# Model of the loading of form factor parameters

The files (JSON, CSV, YAML) are given by their contents. Floating point numbers are real numbers or "not a number".
-/
set_option linter.unusedSectionVars false
set_option linter.unusedSimpArgs false
set_option linter.unusedVariables false
namespace Verif.Parameters
open Verif.Py Verif.Constraints Verif.Probability

/-- A float: a number, or `nan` (`none`).  /repo/flavio/physics/bdecays/formfactors/b_p/bsz_parameters.py:22-24. -/
abbrev Fl := Option ℝ

/-- Product of floats.  /repo/flavio/physics/bdecays/formfactors/b_p/bsz_parameters.py:55. -/
noncomputable def Fl.mul (x y : Fl) : Fl := match x, y with
  | some a, some b => some (a * b)
  | _, _ => none

/-- The distributions: a delta distribution (number) or a multivariate normal one (the central values may be `nan`).
/repo/flavio/physics/bdecays/formfactors/b_p/bsz_parameters.py:54-55,79. -/
inductive FFDist where
  | point (v : ℝ)
  | mvn (n : ℕ) (central : Fin n → Fl) (cov : Matrix (Fin n) (Fin n) ℝ)

/-- The contents of a JSON file: two levels of dictionaries.  Only `.get` is used at the inner level.
/repo/flavio/physics/bdecays/formfactors/b_p/bsz_parameters.py:20-24. -/
structure Tables where
  central : String → Option (String → Fl)
  unc : String → Option (String → Fl)
  corr : String → Option (String → Fl)

/-- `table[ff].get(a, nan)`.  /repo/flavio/physics/bdecays/formfactors/b_p/bsz_parameters.py:22-24. -/
def look (t : String → Option (String → Fl)) (ff a : String) : Except PyErr Fl :=
  match t ff with
  | none => .error .keyError
  | some g => .ok (g a)

/-- Form factors, and the coefficients fixed by kinematic relations (form factor, coefficient).
/repo/flavio/physics/bdecays/formfactors/b_p/bsz_parameters.py:9,27,39, b_v/bsz_parameters.py:8,26-27,39-40. -/
structure Scheme where
  ffs : List String
  fixed : List (String × String)

/-- /repo/flavio/physics/bdecays/formfactors/b_p/bsz_parameters.py:9,27,39. -/
def schemeP : Scheme := ⟨["f+", "fT", "f0"], [("f0", "a0")]⟩

/-- /repo/flavio/physics/bdecays/formfactors/b_v/bsz_parameters.py:8,26-27,39-40. -/
def schemeV : Scheme := ⟨["A0", "A1", "A12", "V", "T1", "T2", "T23"], [("A12", "a0"), ("T2", "a0")]⟩

/-- `ff_a`.  /repo/flavio/physics/bdecays/formfactors/b_p/bsz_parameters.py:10-11. -/
def Scheme.ffA (c : Scheme) : List (String × String) :=
  c.ffs.flatMap fun ff => ["a0", "a1", "a2"].map fun a => (ff, a)

/-- `a_ff_string`.  /repo/flavio/physics/bdecays/formfactors/b_p/bsz_parameters.py:12. -/
def Scheme.aFF (c : Scheme) : List String :=
  c.ffs.flatMap fun ff => ["a0", "a1", "a2"].map fun a => a ++ "_" ++ ff

/-- `np.delete(l, positions)`.  /repo/flavio/physics/bdecays/formfactors/b_p/bsz_parameters.py:28-31. -/
def npDelete {α : Type} (l : List α) (pos : List ℕ) : List α :=
  (l.zipIdx.filter fun e => decide (e.2 ∉ pos)).map Prod.fst

/-- The positions of the fixed coefficients.  /repo/flavio/physics/bdecays/formfactors/b_p/bsz_parameters.py:27,
b_v/bsz_parameters.py:26-27. -/
def Scheme.positions (c : Scheme) : List ℕ := c.fixed.map fun e => c.ffA.idxOf e

/-- `get_ffpar`: central values, uncertainties, correlation matrix.
/repo/flavio/physics/bdecays/formfactors/b_p/bsz_parameters.py:19-32, b_v/bsz_parameters.py:18-32. -/
def getFFPar (c : Scheme) (t : Tables) : Except PyErr (List Fl × List Fl × List (List Fl)) :=
  c.ffA.mapM (fun e => look t.central e.1 e.2) >>= fun cen =>
  c.ffA.mapM (fun e => look t.unc e.1 e.2) >>= fun unc =>
  c.ffA.mapM (fun e2 => c.ffA.mapM fun e1 => look t.corr (e1.1 ++ e2.1) (e1.2 ++ e2.2)) >>= fun cor =>
  .ok (npDelete cen c.positions, npDelete unc c.positions,
    (npDelete cor c.positions).map fun r => npDelete r c.positions)

open Classical in
/-- `MultivariateNormalDistribution(central_value=..., covariance=...)`: a `nan` in the covariance makes
`np.linalg.eigvals` raise `LinAlgError` (a `ValueError`), one in the central values is not noticed.
/repo/flavio/statistics/probability.py:1346-1398. -/
noncomputable def mkFF (n : ℕ) (central : Fin n → Fl) (cov : Fin n → Fin n → Fl) : Except PyErr FFDist :=
  if ∃ i j, cov i j = none then .error .valueError
  else mkMVNCov (fun i => (central i).getD 0) true (fun i j => (cov i j).getD 0) >>= fun d => .ok (.mvn n central d.cov)

/-- `np.outer(unc, unc) * corr` and the distribution.
/repo/flavio/physics/bdecays/formfactors/b_p/bsz_parameters.py:53-55. -/
noncomputable def distBSZ (x : List Fl × List Fl × List (List Fl)) : Except PyErr FFDist :=
  mkFF x.1.length (fun i => x.1[i])
    (fun i j => ((x.2.1.getD i none).mul (x.2.1.getD j none)).mul ((x.2.2.getD i []).getD j none))

/-- Make sure that the `Parameter` exists; if it did, remove its constraint.
/repo/flavio/physics/bdecays/formfactors/b_p/bsz_parameters.py:41-52.  (LaTeX code and description are not modelled.) -/
def register (s : PS FFDist) (p : String) : PS FFDist :=
  if p ∈ s.reg then { s with st := removeConstraint s.st p } else { s with reg := s.reg ++ [p] }

/-- The parameter names.  /repo/flavio/physics/bdecays/formfactors/b_p/bsz_parameters.py:36-39, b_v/bsz_parameters.py:36-40. -/
def namesBSZ (c : Scheme) (process : String) : List String :=
  c.fixed.foldl (fun l e => l.erase (process ++ " BSZ" ++ " " ++ (e.2 ++ "_" ++ e.1)))
    (c.aFF.map fun x => process ++ " BSZ" ++ " " ++ x)

/-- `load_parameters`.  `file = none`: the file does not exist.
/repo/flavio/physics/bdecays/formfactors/b_p/bsz_parameters.py:35-55, b_v/bsz_parameters.py:35-55. -/
noncomputable def loadBSZ (c : Scheme) (file : Option Tables) (process : String) (s : PS FFDist) :
    PS FFDist × Option PyErr :=
  let s₁ := (namesBSZ c process).foldl register s
  match file with
  | none => (s₁, some .osError)
  | some t =>
    match getFFPar c t >>= distBSZ with
    | .error e => (s₁, some e)
    | .ok d => (s₁.add (namesBSZ c process) (.base d), none)

/-! ### Transitions -/

/-- `resonance_masses_gkvd` for `B → P`.  /repo/flavio/physics/bdecays/formfactors/b_p/bsz_parameters.py:59-72. -/
noncomputable def massesPgkvd : Dict String (Dict String ℝ) :=
  [("B->K", [("m0", 5.630), ("m+", 5.415)]), ("B->pi", [("m0", 5.540), ("m+", 5.325)]), ("B->D", [("m0", 6.420), ("m+", 6.330)])]

/-- `resonance_masses_bsz`.  /repo/flavio/physics/bdecays/formfactors/b_v/bsz_parameters.py:59-85. -/
noncomputable def massesVbsz : Dict String (Dict String ℝ) :=
  [("B->K*", [("m0", 5.367), ("m1-", 5.415), ("m1+", 5.830)]), ("B->rho", [("m0", 5.279), ("m1-", 5.324), ("m1+", 5.716)]),
   ("B->omega", [("m0", 5.279), ("m1-", 5.324), ("m1+", 5.716)]), ("Bs->phi", [("m0", 5.367), ("m1-", 5.415), ("m1+", 5.830)]),
   ("Bs->K*", [("m0", 5.279), ("m1-", 5.324), ("m1+", 5.716)])]

/-- `resonance_masses_gkvd` for `B → V`.  /repo/flavio/physics/bdecays/formfactors/b_v/bsz_parameters.py:88-104. -/
noncomputable def massesVgkvd : Dict String (Dict String ℝ) :=
  [("B->K*", [("m0", 5.336), ("m1-", 5.412), ("m1+", 5.829)]), ("B->rho", [("m0", 5.279), ("m1-", 5.325), ("m1+", 5.724)]),
   ("B->D*", [("m0", 6.275), ("m1-", 6.330), ("m1+", 6.767)])]

/-- `str.replace('->', '')`.  /repo/flavio/physics/bdecays/formfactors/b_v/bsz_parameters.py:110. -/
def dropArrow : List Char → List Char
  | '-' :: '>' :: l => dropArrow l
  | c :: l => c :: dropArrow l
  | [] => []

/-- `str.replace('*', 'star')`.  /repo/flavio/physics/bdecays/formfactors/b_v/bsz_parameters.py:110. -/
def star (l : List Char) : List Char := l.flatMap fun c => if c = '*' then ['s', 't', 'a', 'r'] else [c]

/-- `transition_filename`.  /repo/flavio/physics/bdecays/formfactors/b_v/bsz_parameters.py:107-110. -/
def transitionFilename (tr : String) : String := String.ofList (star (dropArrow tr.toList))

/-- `tr.replace('->', '')`.  /repo/flavio/physics/bdecays/formfactors/b_p/bsz_parameters.py:80. -/
def transitionFilenameP (tr : String) : String := String.ofList (dropArrow tr.toList)

/-- One of the loaders: scheme, resonance masses, paper, part of the file name for the transition.
/repo/flavio/physics/bdecays/formfactors/b_p/bsz_parameters.py:75-81, b_v/bsz_parameters.py:113-119,135-141. -/
structure Loader where
  scheme : Scheme
  masses : Dict String (Dict String ℝ)
  paper : String
  part : String → String

/-- /repo/flavio/physics/bdecays/formfactors/b_p/bsz_parameters.py:75-81 `gkvd_load`. -/
noncomputable def gkvdLoadP : Loader := ⟨schemeP, massesPgkvd, "1811-00983", transitionFilenameP⟩

/-- /repo/flavio/physics/bdecays/formfactors/b_v/bsz_parameters.py:113-119 `bsz_load`. -/
noncomputable def bszLoad : Loader := ⟨schemeV, massesVbsz, "1503-05534", transitionFilename⟩

/-- /repo/flavio/physics/bdecays/formfactors/b_v/bsz_parameters.py:135-141 `gkvd_load`. -/
noncomputable def gkvdLoadV : Loader := ⟨schemeV, massesVgkvd, "1811-00983", transitionFilename⟩

/-- The file name.  /repo/flavio/physics/bdecays/formfactors/b_v/bsz_parameters.py:118. -/
def Loader.filename (l : Loader) (version fit tr : String) : String :=
  "data/arXiv-" ++ l.paper ++ version ++ "/" ++ l.part tr ++ "_" ++ fit ++ ".json"

/-- `constraints.set_constraint('{} BCL {}'.format(tr, m), v)`.
/repo/flavio/physics/bdecays/formfactors/b_v/bsz_parameters.py:116-117. -/
def setMass (tr : String) (s : PS FFDist) (e : String × ℝ) : PS FFDist :=
  s.add [tr ++ " BCL " ++ e.1] (.base (.point e.2))

/-- The body of the loop over the transitions.
/repo/flavio/physics/bdecays/formfactors/b_v/bsz_parameters.py:115-119. -/
noncomputable def Loader.one (l : Loader) (files : String → Option Tables) (version fit : String) (s : PS FFDist)
    (tr : String) : PS FFDist × Option PyErr :=
  match l.masses.get? tr with
  | none => (s, some .keyError)
  | some m => loadBSZ l.scheme (files (l.filename version fit tr)) tr (m.foldl (setMass tr) s)

/-- `bsz_load`, `gkvd_load`.  /repo/flavio/physics/bdecays/formfactors/b_v/bsz_parameters.py:113-119,135-141,
b_p/bsz_parameters.py:75-81. -/
noncomputable def Loader.load (l : Loader) (files : String → Option Tables) (version fit : String) (s : PS FFDist)
    (trs : List String) : PS FFDist × Option PyErr :=
  loop (l.one files version fit) s trs

/-! ### Lattice results -/

/-- `add_constraint(..., is_parameter_constraint=True)`.  /repo/flavio/classes.py:144-163. -/
def PS.addParam (s : PS FFDist) (ps : List String) (d : FFDist) : PS FFDist :=
  let r := addParameterConstraint s.reg s.st ps s.heap.length
  ⟨r.1, r.2, s.heap ++ [.base d]⟩

/-- `name.split('_')[1][0] == 'c'`: the character after the first underscore; `IndexError` if there is none, or if it is
another underscore.  /repo/flavio/physics/bdecays/formfactors/b_v/lattice_parameters.py:14,19. -/
def isC (name : String) : Except PyErr Bool :=
  match (name.toList.dropWhile fun x => x != '_').drop 1 with
  | c :: _ => if c = '_' then .error .indexError else .ok (decide (c = 'c'))
  | [] => .error .indexError

/-- `csv_to_dict` for a file with two columns.  /repo/flavio/physics/bdecays/formfactors/b_v/lattice_parameters.py:7-22. -/
def csvRes (lines : List (String × ℝ)) : Except PyErr (Dict String ℝ) :=
  lines.foldlM (fun d e => isC e.1 >>= fun b => .ok (if b then d else d.set e.1 e.2)) []

/-- `csv_to_dict` for a file with three columns.  (`or` does not evaluate its second argument if the first is true.)
/repo/flavio/physics/bdecays/formfactors/b_v/lattice_parameters.py:7-22. -/
def csvCov (lines : List (String × String × ℝ)) : Except PyErr (Dict (String × String) ℝ) :=
  lines.foldlM (fun d e => isC e.1 >>= fun b => if b then .ok d else
    isC e.2.1 >>= fun b' => .ok (if b' then d else d.set (e.1, e.2.1) e.2.2)) []

/-- `sorted(d.keys())`.  /repo/flavio/physics/bdecays/formfactors/b_v/lattice_parameters.py:29. -/
def sortedKeys (d : Dict String ℝ) : List String := d.keys.mergeSort (fun a b => decide (a ≤ b))

/-- `cov_dict[(k, k)]`.  /repo/flavio/physics/bdecays/formfactors/b_v/lattice_parameters.py:34. -/
def diagOf (d : Dict (String × String) ℝ) (k : String) : Except PyErr ℝ :=
  match d.get? (k, k) with
  | some v => .ok v
  | none => .error .keyError

/-- The distribution of `load_parameters`.
/repo/flavio/physics/bdecays/formfactors/b_v/lattice_parameters.py:30-37. -/
noncomputable def distLattice (res : Dict String ℝ) (cov : Dict (String × String) ℝ) (ks : List String) : Except PyErr FFDist :=
  ks.mapM (diagOf cov) >>= fun diag =>
    mkFF ks.length (fun i => res.get? ks[i]) fun i j =>
      some ((cov.get? (ks[i], ks[j])).getD 0 + (cov.get? (ks[j], ks[i])).getD 0 - if i = j then diag.getD i 0 else 0)

/-- `load_parameters` for `B → V`.  /repo/flavio/physics/bdecays/formfactors/b_v/lattice_parameters.py:25-37. -/
noncomputable def loadLattice (fileRes : List (String × ℝ)) (fileCov : List (String × String × ℝ)) (process : String)
    (s : PS FFDist) : PS FFDist × Option PyErr :=
  match csvRes fileRes >>= fun res => csvCov fileCov >>= fun cov => distLattice res cov (sortedKeys res) >>= fun d =>
      .ok (sortedKeys res, d) with
  | .error e => (s, some e)
  | .ok x => (s.addParam (x.1.map fun k => process ++ " SSE" ++ " " ++ k) x.2, none)

/-- `ffname_dict`.  /repo/flavio/physics/bdecays/formfactors/lambdab_12/lattice_parameters.py:18-31. -/
def ffname : Dict String String :=
  [("f0", "fVt"), ("fperp", "fVperp"), ("fplus", "fV0"), ("g0", "fAt"), ("gperp", "fAperp"), ("gplus", "fA0"), ("gpp", "fA0"),
   ("hperp", "fTperp"), ("hplus", "fT0"), ("htildeperp", "fT5perp"), ("htildeplus", "fT50"), ("htildepp", "fT50")]

/-- `translate_parameters`.  /repo/flavio/physics/bdecays/formfactors/lambdab_12/lattice_parameters.py:41-46. -/
def translate (name : String) : Except PyErr String :=
  match ffname.get? (String.ofList (name.toList.drop 3)) with
  | some f => .ok (String.ofList (name.toList.take 3) ++ f)
  | none => .error .keyError

/-- `load_parameters` for `Λb → Λ`, once the files have been read and the names sorted.  The covariance is taken as it is.  The
parameters are registered after the names have been converted, but before the distribution is made.  (Of new parameters the
first characters are assumed to be `a0`, `a1` or `a2`, since the TeX code is looked up.)
/repo/flavio/physics/bdecays/formfactors/lambdab_12/lattice_parameters.py:53-68. -/
noncomputable def loadLambdaFrom (res : Dict String ℝ) (cov : Dict (String × String) ℝ) (ks : List String) (process : String)
    (s : PS FFDist) : PS FFDist × Option PyErr :=
  match ks.mapM translate with
  | .error e => (s, some e)
  | .ok ns =>
    let names := ns.map fun k => process ++ " SSE" ++ " " ++ k
    let s₁ := names.foldl register s
    match mkFF ks.length (fun i => res.get? ks[i]) (fun i j => some ((cov.get? (ks[i], ks[j])).getD 0)) with
    | .error e => (s₁, some e)
    | .ok d => (s₁.add names (.base d), none)

/-- `load_parameters` for `Λb → Λ`.  A file with two columns and one with three.
/repo/flavio/physics/bdecays/formfactors/lambdab_12/lattice_parameters.py:7-16,48-68. -/
noncomputable def loadLambda (fileRes : List (String × ℝ)) (fileCov : List (String × String × ℝ)) (process : String)
    (s : PS FFDist) : PS FFDist × Option PyErr :=
  loadLambdaFrom (Dict.ofPairs fileRes) (Dict.ofPairs (fileCov.map fun e => ((e.1, e.2.1), e.2.2)))
    (sortedKeys (Dict.ofPairs fileRes)) process s

/-! ### Files with lists of names, central values and a covariance matrix -/

/-- `o[:index] + ' BCL ' + o[index:]` with the index of the first `f` or else of the first `b`.
/repo/flavio/physics/bdecays/formfactors/b_p/bcl_parameters_lmvd.py:14-24. -/
def renameLMVD (o : List Char) : Except PyErr (List Char) :=
  let cut (c : Char) := o.takeWhile (fun x => x != c) ++ " BCL ".toList ++ o.dropWhile (fun x => x != c)
  if 'f' ∈ o then .ok (cut 'f') else if 'b' ∈ o then .ok (cut 'b') else .error .valueError

/-- `o.replace('::', '')`.  /repo/flavio/physics/bdecays/formfactors/b_p/bcl_parameters_lmvd.py:14. -/
def dropColons : List Char → List Char
  | ':' :: ':' :: l => dropColons l
  | c :: l => c :: dropColons l
  | [] => []

/-- `load_parameters` for `B → π` (LMVD).  /repo/flavio/physics/bdecays/formfactors/b_p/bcl_parameters_lmvd.py:7-26. -/
noncomputable def loadLMVD {n : ℕ} (obs : List String) (medians : Fin n → ℝ) (cov : Matrix (Fin n) (Fin n) ℝ) (s : PS FFDist) :
    PS FFDist × Option PyErr :=
  match obs.mapM (fun o => renameLMVD (dropColons o.toList)) >>= fun ns =>
      mkFF n (fun i => some (medians i)) (fun i j => some (cov i j)) >>= fun d => .ok (ns.map String.ofList, d) with
  | .error e => (s, some e)
  | .ok x => (s.addParam x.1 x.2, none)

/-- `load_parameters` of the BCL parametrisation.  /repo/flavio/physics/bdecays/formfactors/b_p/bcl_parameters.py:7-12. -/
noncomputable def loadBCL {n : ℕ} (names : List String) (central unc : Fin n → ℝ) (corr : Matrix (Fin n) (Fin n) ℝ) (s : PS FFDist) :
    PS FFDist × Option PyErr :=
  match mkFF n (fun i => some (central i)) (fun i j => some (unc i * unc j * corr i j)) with
  | .error e => (s, some e)
  | .ok d => (s.addParam names d, none)

/-- Split at the last occurrence of a (non-empty) text: what comes before and after it.
(Greedy `(.*)`, /repo/flavio/classes.py:515.) -/
def lastOcc (m : List Char) : List Char → Option (List Char × List Char)
  | [] => none
  | c :: l =>
    match lastOcc m l with
    | some x => some (c :: x.1, x.2)
    | none => if m.isPrefixOf (c :: l) then some ([], (c :: l).drop m.length) else none

/-- What follows `::alpha^`, matched with `(.*)_(.*)@BSZ2015` and rewritten to ` BSZ a\2_\1`: both groups are greedy.  (Names
without line breaks.)  /repo/flavio/classes.py:515. -/
def matchEOS (r : List Char) : Option (List Char) :=
  match lastOcc "@BSZ2015".toList r with
  | none => none
  | some x =>
    match lastOcc ['_'] x.1 with
    | none => none
    | some y => some (" BSZ a".toList ++ y.2 ++ ['_'] ++ y.1 ++ x.2)

/-- `pattern.sub(subst, obs)`: after a match nothing is left to be matched.
/repo/flavio/physics/bdecays/formfactors/b_p/bsz_parameters.py:90-91, /repo/flavio/classes.py:515. -/
def renameEOS : List Char → List Char
  | [] => []
  | c :: l =>
    if "::alpha^".toList.isPrefixOf (c :: l) then
      match matchEOS ((c :: l).drop 8) with
      | some r => r
      | none => c :: renameEOS l
    else c :: renameEOS l

/-- `load_ffs_eos`: the parameters are not registered.  /repo/flavio/physics/bdecays/formfactors/b_p/bsz_parameters.py:84-92. -/
noncomputable def loadEOS {n : ℕ} (obs : List String) (means : Fin n → ℝ) (cov : Matrix (Fin n) (Fin n) ℝ) (s : PS FFDist) :
    PS FFDist × Option PyErr :=
  match mkFF n (fun i => some (means i)) (fun i j => some (cov i j)) with
  | .error e => (s, some e)
  | .ok d => (s.add (obs.map fun o => String.ofList (renameEOS o.toList)) (.base d), none)

end Verif.Parameters
