import Verif.Py.ExceptLemmas
import Verif.Py.Dict
import Mathlib.Data.Real.Basic
import Mathlib.Analysis.SpecialFunctions.Log.Basic
import Mathlib.Analysis.Real.Pi.Bounds

/-!
# Model of `flavio.physics.running.running`

Scales are real numbers.  The numerical ODE solver is an external function `flow nf a b x`: the value
at scale `b` of the solution of the `nf`-flavour RGE with value `x` at scale `a`.
-/
namespace Verif.Running
open Verif.Py

/-- `config['RGE thresholds']`. (Used for `Thr.at`, /repo/flavio/physics/running/running.py:14-22.) -/
structure Thr where
  mc : ℝ
  mb : ℝ
  mt : ℝ

/-- `_thresholds()` (the entry `7: inf` is built into `upStop`).
/repo/flavio/physics/running/running.py:14-22. -/
noncomputable def Thr.at (t : Thr) : Nat → ℝ
  | 4 => t.mc
  | 5 => t.mb
  | 6 => t.mt
  | _ => 1 / 10

variable {X : Type}

/-- The loop for running down over the remaining flavour numbers, with the current initial condition
and scale and the last value of `sol`.  /repo/flavio/physics/running/running.py:44-57. -/
noncomputable def down (flow : Nat → ℝ → ℝ → X → X) (t : Thr) (sIn sOut : ℝ) (nfOut : Option Nat) :
    List Nat → X → ℝ → Option X → Except PyErr X
  | [], _, _, none => .error .unboundLocalError
  | [], _, _, some sol => .ok sol
  | nf :: l, x, s, last =>
    if sIn ≤ t.at nf then down flow t sIn sOut nfOut l x s last
    else
      let stop := if nfOut = some nf then sOut else max (t.at nf) sOut
      let sol := flow nf s stop x
      if stop = sOut then .ok sol else down flow t sIn sOut nfOut l sol (t.at nf) (some sol)

/-- `min(thresholds[nf+1], scale_out)`; `thresholds[7]` is infinite.
(Used for `up`, /repo/flavio/physics/running/running.py:58-71.) -/
noncomputable def upStop (t : Thr) (nf : Nat) (sOut : ℝ) : ℝ :=
  if nf < 6 then min (t.at (nf + 1)) sOut else sOut

/-- The loop for running up (the argument `nf_out` is not used).
/repo/flavio/physics/running/running.py:58-71. -/
noncomputable def up (flow : Nat → ℝ → ℝ → X → X) (t : Thr) (sIn sOut : ℝ) :
    List Nat → X → ℝ → Option X → Except PyErr X
  | [], _, _, none => .error .unboundLocalError
  | [], _, _, some sol => .ok sol
  | nf :: l, x, s, last =>
    if nf < 6 ∧ t.at (nf + 1) ≤ sIn then up flow t sIn sOut l x s last
    else
      let sol := flow nf s (upStop t nf sOut) x
      if upStop t nf sOut = sOut then .ok sol
      else up flow t sIn sOut l sol (t.at (nf + 1)) (some sol)

/-- `_rg_evolve_sm` without its cache.  (For `scale_in == scale_out` it is not called.)
/repo/flavio/physics/running/running.py:38-72. -/
noncomputable def evolve' (flow : Nat → ℝ → ℝ → X → X) (t : Thr) (sIn sOut : ℝ) (nfOut : Option Nat)
    (x : X) : Except PyErr X :=
  if sOut < sIn then down flow t sIn sOut nfOut [6, 5, 4, 3] x sIn none
  else up flow t sIn sOut [3, 4, 5, 6] x sIn none

/-- `rg_evolve_sm`.  /repo/flavio/physics/running/running.py:28-35. -/
noncomputable def evolve (flow : Nat → ℝ → ℝ → X → X) (t : Thr) (sIn sOut : ℝ) (nfOut : Option Nat)
    (x : X) : Except PyErr X :=
  if sIn = sOut then .ok x
  else if sOut < 1 / 10 then .error .valueError
  else evolve' flow t sIn sOut nfOut x

/-! ## Cache of `_rg_evolve_sm` -/

/-- Arguments of a call. (Used for `cachedCall`, /repo/flavio/physics/running/running.py:37.) -/
structure Args (X : Type) where
  x : X
  deriv : Nat
  sIn : ℝ
  sOut : ℝ
  nfOut : Option Nat

/-- State: the configured thresholds (which are *not* part of the cache key) and the cache.
(Used for `cachedCall`, /repo/flavio/physics/running/running.py:37.) -/
structure CacheSt (X : Type) where
  thr : Thr
  cache : List (Args X × X)

open Classical in
/-- A call through `lru_cache`: a stored result is returned; otherwise the computed result is stored
(exceptions are not stored).  `flow d` is the flow of the derivative function number `d`.
/repo/flavio/physics/running/running.py:37. -/
noncomputable def cachedCall (flow : Nat → Nat → ℝ → ℝ → X → X) (s : CacheSt X) (a : Args X) :
    Except PyErr X × CacheSt X :=
  match s.cache.find? (fun e => decide (e.1 = a)) with
  | some e => (.ok e.2, s)
  | none => match evolve' (flow a.deriv) s.thr a.sIn a.sOut a.nfOut a.x with
    | .ok r => (.ok r, { s with cache := (a, r) :: s.cache })
    | .error e => (.error e, s)

/-- What can happen to the cache: a call, eviction of entries, a change of the configuration.
Used for /repo/flavio/physics/running/running.py:38-75. -/
inductive CacheOp (X : Type) where
  | call (a : Args X)
  | evict (keep : Args X × X → Bool)
  | setThr (t : Thr)

/-- Effect of one event on the state. Used for /repo/flavio/physics/running/running.py:38-75. -/
noncomputable def cacheStep (flow : Nat → Nat → ℝ → ℝ → X → X) (s : CacheSt X) : CacheOp X → CacheSt X
  | .call a => (cachedCall flow s a).2
  | .evict keep => { s with cache := s.cache.filter keep }
  | .setThr t => { s with thr := t }

/-! ## Fine-structure constant -/

/-- `math.log` (`ValueError` for non-positive arguments).
(Used for `runAlphaE`, /repo/flavio/physics/running/running.py:75-85.) -/
noncomputable def pyLog (x : ℝ) : Except PyErr ℝ := if x ≤ 0 then .error .valueError else .ok (Real.log x)

/-- Division (`ZeroDivisionError`).
(Used for `runAlphaE`, /repo/flavio/physics/running/running.py:75-85.) -/
noncomputable def pyDiv (x y : ℝ) : Except PyErr ℝ := if y = 0 then .error .zeroDivisionError else .ok (x / y)

/-- `beta0` in `run_alpha_e`.  /repo/flavio/physics/running/running.py:84. -/
noncomputable def beta0 (nu nd ne : ℝ) : ℝ := -4 / 3 * (4 * nu / 3 + nd / 3 + ne)

/-- `run_alpha_e`.  /repo/flavio/physics/running/running.py:75-85. -/
noncomputable def runAlphaE (a sIn sOut nu nd ne : ℝ) : Except PyErr ℝ :=
  if sOut = sIn then .ok a
  else pyDiv sOut sIn >>= fun q => pyLog q >>= fun l =>
    pyDiv a (1 + a * beta0 nu nd ne * l / (2 * Real.pi))

/-- `get_nf` (for real scales the last branch, `ValueError`, needs mc > mb or mb > mt).
/repo/flavio/physics/running/running.py:88-103. -/
noncomputable def getNf (t : Thr) (scale : ℝ) : Except PyErr Nat :=
  if t.mt ≤ scale then .ok 6
  else if t.mb ≤ scale ∧ scale < t.mt then .ok 5
  else if t.mc ≤ scale ∧ scale < t.mb then .ok 4
  else if scale < t.mc then .ok 3
  else .error .valueError

/-- `m_Z` in `get_alpha_e`. (Used for `alphaENf`, /repo/flavio/physics/running/running.py:111-128.) -/
noncomputable def MZ : ℝ := 91.1876

/-- `get_alpha_e` once the number of flavours is fixed.
/repo/flavio/physics/running/running.py:111-128. -/
noncomputable def alphaENf (t : Thr) (aeMZ scale : ℝ) (nf : Nat) : Except PyErr ℝ :=
  if nf = 5 then runAlphaE aeMZ MZ scale 2 3 3
  else if nf = 6 then runAlphaE aeMZ MZ t.mt 2 3 3 >>= fun aemt => runAlphaE aemt t.mt scale 3 3 3
  else if nf = 4 then runAlphaE aeMZ MZ t.mb 2 3 3 >>= fun aemb => runAlphaE aemb t.mb scale 2 2 3
  else if nf = 3 then runAlphaE aeMZ MZ t.mb 2 3 3 >>= fun aemb =>
    runAlphaE aemb t.mb t.mc 2 2 3 >>= fun aemc => runAlphaE aemc t.mc scale 1 2 2
  else .error .valueError

/-- `nf_out or get_nf(scale)`: `None` and 0 mean "not given".
(Used for `getAlphaE`, /repo/flavio/physics/running/running.py:106-128.) -/
noncomputable def chooseNf (t : Thr) (scale : ℝ) : Option Nat → Except PyErr Nat
  | none => getNf t scale
  | some 0 => getNf t scale
  | some n => .ok n

/-- `get_alpha_e`.  /repo/flavio/physics/running/running.py:106-128. -/
noncomputable def getAlphaE (t : Thr) (aeMZ scale : ℝ) (nfOut : Option Nat) : Except PyErr ℝ :=
  chooseNf t scale nfOut >>= alphaENf t aeMZ scale

end Verif.Running
