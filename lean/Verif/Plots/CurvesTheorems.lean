import Verif.Plots.Curves
/-! # Experimental points and one-dimensional curves: theorems (C147) -/
set_option linter.unusedVariables false
set_option linter.unusedSimpArgs false
namespace Verif.Plots
open Verif.Py

/-! ## Specification of `diff_plot_exp` -/

/-- Does the user want this value of the variable? (Specification.) -/
def wantedX (inc exc : Option (List ℝ)) (x : ℝ) : Prop :=
  (∀ l, inc = some l → x ∈ l) ∧ (∀ l, exc = some l → x ∉ l)

open Classical in
/-- What a measurement contributes: its wanted points, if the measurement is to be included. (Specification.) -/
noncomputable def contribX (incM : Option (List String)) (inc exc : Option (List ℝ)) (m : Meas1) :
    List (ℝ × (ℝ × ℝ × ℝ)) :=
  if ∀ l, incM = some l → m.name ∈ l then m.pts.filter fun e => decide (wantedX inc exc e.1) else []

open Classical in
/-- The measurements that contribute something, in order. (Specification.) -/
noncomputable def active (incM : Option (List String)) (inc exc : Option (List ℝ)) (ms : List Meas1) : List Meas1 :=
  ms.filter fun m => decide (contribX incM inc exc m ≠ [])

/-! ## Lemmas -/

open Classical in
theorem keptX_eq (inc exc : Option (List ℝ)) (h : inc = none ∨ exc = none) (l : List (ℝ × (ℝ × ℝ × ℝ))) :
    keptX inc exc l = .ok (l.filter fun e => decide (wantedX inc exc e.1)) := by
  induction l with
  | nil => rfl
  | cons e l ih =>
    unfold keptX
    have hk : keepX inc exc e.1 = .ok (decide (wantedX inc exc e.1)) := by
      unfold keepX wantedX
      rcases h with rfl | rfl
      · cases exc <;> simp
      · cases inc <;> simp
    rw [hk, ok_bind_eq, ih, ok_bind_eq]
    by_cases hw : wantedX inc exc e.1 <;> simp [List.filter_cons, hw]

/-- The error bar of a measurement. (Specification.) -/
noncomputable def barOf (sf : ℝ) (pts : List (ℝ × (ℝ × ℝ × ℝ))) (args : Args) : ErrBar1 :=
  ⟨pts.map fun e => (e.1, sf * e.2.1, sf * e.2.2.2, sf * e.2.2.1), args⟩

theorem diffStep_eq (incM : Option (List String)) (inc exc : Option (List ℝ)) (h : inc = none ∨ exc = none)
    (sf : ℝ) (col : Option (Dict String String)) (kwargs : Args) (s : DiffSt) (m : Meas1) :
    ∃ y, diffStep incM inc exc sf col kwargs s m = .ok
      (if contribX incM inc exc m = [] then { s with y := y }
       else ⟨(measArgs kwargs col s.done m.experiment).2, s.xs ++ (contribX incM inc exc m).map Prod.fst,
         s.drawn ++ [barOf sf (contribX incM inc exc m) (measArgs kwargs col s.done m.experiment).1], y⟩) := by
  classical
  unfold diffStep
  have hcond : skipped incM m.name = !decide (∀ l, incM = some l → m.name ∈ l) := by
    cases incM with
    | none => simp [skipped]
    | some l => simp [skipped]
  rw [hcond]
  by_cases hc : ∀ l, incM = some l → m.name ∈ l
  · have e : contribX incM inc exc m = m.pts.filter fun e => decide (wantedX inc exc e.1) := by
      unfold contribX; rw [if_pos hc]
    rw [e]
    have hd : ¬ (!decide (∀ l, incM = some l → m.name ∈ l)) = true := by simpa using hc
    rw [if_neg hd]
    by_cases hp : m.pts = []
    · rw [if_pos hp, hp]; exact ⟨s.y, by simp⟩
    · rw [if_neg hp, keptX_eq inc exc h, ok_bind_eq]
      simp only []
      by_cases hk : (m.pts.filter fun e => decide (wantedX inc exc e.1)) = []
      · rw [if_pos hk, hk]
        exact ⟨some [], by simp⟩
      · rw [if_neg hk]
        exact ⟨_, by rw [if_neg hk]; rfl⟩
  · have e : contribX incM inc exc m = [] := by
      unfold contribX; rw [if_neg hc]
    have hd : (!decide (∀ l, incM = some l → m.name ∈ l)) = true := by simpa using hc
    rw [e, if_pos hd]
    exact ⟨s.y, by simp⟩

/-- The error bars of a list of contributing measurements. (Specification.) -/
noncomputable def bars (incM : Option (List String)) (inc exc : Option (List ℝ)) (sf : ℝ)
    (col : Option (Dict String String)) (kwargs : Args) : List String → List Meas1 → List ErrBar1
  | _, [] => []
  | done, m :: l => barOf sf (contribX incM inc exc m) (measArgs kwargs col done m.experiment).1 ::
      bars incM inc exc sf col kwargs (measArgs kwargs col done m.experiment).2 l

theorem diffLoop_eq (incM : Option (List String)) (inc exc : Option (List ℝ)) (h : inc = none ∨ exc = none)
    (sf : ℝ) (col : Option (Dict String String)) (kwargs : Args) (ms : List Meas1) (s : DiffSt) :
    ∃ s', diffLoop incM inc exc sf col kwargs s ms = .ok s' ∧
      s'.xs = s.xs ++ (ms.flatMap fun m => (contribX incM inc exc m).map Prod.fst) ∧
      s'.drawn = s.drawn ++ bars incM inc exc sf col kwargs s.done (active incM inc exc ms) := by
  induction ms generalizing s with
  | nil => exact ⟨s, rfl, by simp, by simp [active, bars]⟩
  | cons m l ih =>
    obtain ⟨y, hy⟩ := diffStep_eq incM inc exc h sf col kwargs s m
    unfold diffLoop
    rw [hy, ok_bind_eq]
    obtain ⟨s', h1, h2, h3⟩ := ih (if contribX incM inc exc m = [] then { s with y := y }
       else ⟨(measArgs kwargs col s.done m.experiment).2, s.xs ++ (contribX incM inc exc m).map Prod.fst,
         s.drawn ++ [barOf sf (contribX incM inc exc m) (measArgs kwargs col s.done m.experiment).1], y⟩)
    refine ⟨s', h1, ?_, ?_⟩
    · rw [h2]
      by_cases hc : contribX incM inc exc m = []
      · simp [hc]
      · simp [hc]
    · rw [h3]
      by_cases hc : contribX incM inc exc m = []
      · simp [hc, active]
      · simp [hc, active, bars]

theorem bars_length (incM inc exc) (sf : ℝ) (col : Option (Dict String String)) (kwargs : Args) (done : List String)
    (l : List Meas1) : (bars incM inc exc sf col kwargs done l).length = l.length := by
  induction l generalizing done with
  | nil => rfl
  | cons m l ih => simp [bars, ih]

/-- The keyword arguments with the colour of the experiment. (Specification.) -/
def withColour (kwargs : Args) (col : Option (Dict String String)) (exp : String) : Args :=
  match col with
  | none => kwargs
  | some d => match d.get? exp with
    | none => kwargs
    | some c => kwargs.set "c" (.str c)

theorem withColour_get (kwargs : Args) (col : Option (Dict String String)) (exp k : String) :
    (withColour kwargs col exp).get? k =
      if k = "c" then (((col.bind fun d => d.get? exp).map PyVal.str).or (kwargs.get? "c")) else kwargs.get? k := by
  unfold withColour
  cases col with
  | none => by_cases hk : k = "c" <;> simp [hk]
  | some d =>
    cases hd : d.get? exp with
    | none => by_cases hk : k = "c" <;> simp [hk, hd]
    | some c =>
      by_cases hk : k = "c"
      · simp [hk, hd, Dict.get?_set]
      · simp [hk, hd, Ne.symm hk, Dict.get?_set]

theorem measArgs_eq (kwargs : Args) (col : Option (Dict String String)) (done : List String) (exp : String) :
    (measArgs kwargs col done exp).1 = (if kwargs.get? "label" = none ∧ exp ∉ done then
      (withColour kwargs col exp).set "label" (.str exp) else withColour kwargs col exp) ∧
    (measArgs kwargs col done exp).2 = (if kwargs.get? "label" = none ∧ exp ∉ done then done ++ [exp] else done) := by
  have e : measArgs kwargs col done exp = (if !(withColour kwargs col exp).has "label" then
      if exp ∈ done then (withColour kwargs col exp, done)
      else ((withColour kwargs col exp).set "label" (.str exp), done ++ [exp])
    else (withColour kwargs col exp, done)) := rfl
  have hl : (withColour kwargs col exp).get? "label" = kwargs.get? "label" := by
    rw [withColour_get, if_neg (by decide)]
  rw [e]
  simp only [Dict.has, hl]
  cases hk : kwargs.get? "label" with
  | none =>
    by_cases hm : exp ∈ done <;> simp [hm]
  | some v => simp

theorem bars_spec (incM inc exc) (sf : ℝ) (col : Option (Dict String String)) (kwargs : Args) (done : List String)
    (l : List Meas1) (i : ℕ) (b : ErrBar1) (m : Meas1)
    (hb : (bars incM inc exc sf col kwargs done l)[i]? = some b) (hm : l[i]? = some m) :
    b.points = (contribX incM inc exc m).map (fun e => (e.1, sf * e.2.1, sf * e.2.2.2, sf * e.2.2.1)) ∧
    (∀ k, k ≠ "label" → b.args.get? k = (withColour kwargs col m.experiment).get? k) ∧
    (kwargs.get? "label" ≠ none → b.args.get? "label" = kwargs.get? "label") ∧
    (kwargs.get? "label" = none → ((m.experiment ∈ done ∨ ∃ j < i, ∃ m', l[j]? = some m' ∧ m'.experiment = m.experiment) →
      b.args.get? "label" = none)) ∧
    (kwargs.get? "label" = none → (¬ (m.experiment ∈ done ∨ ∃ j < i, ∃ m', l[j]? = some m' ∧ m'.experiment = m.experiment) →
      b.args.get? "label" = some (.str m.experiment))) := by
  induction l generalizing done i with
  | nil => simp at hm
  | cons m0 l ih =>
    obtain ⟨a1, a2⟩ := measArgs_eq kwargs col done m0.experiment
    cases i with
    | zero =>
      simp only [bars, List.getElem?_cons_zero, Option.some.injEq] at hb hm
      subst hm
      rw [← hb]
      have hl : (withColour kwargs col m0.experiment).get? "label" = kwargs.get? "label" := by
        rw [withColour_get, if_neg (by decide)]
      refine ⟨rfl, ?_, ?_, ?_, ?_⟩
      · intro k hk
        simp only [barOf, a1]
        split
        · rw [Dict.get?_set_ne _ _ (Ne.symm hk)]
        · rfl
      · intro hn
        simp only [barOf, a1]
        rw [if_neg (fun h => hn h.1), hl]
      · intro hn hd
        have hd' : m0.experiment ∈ done := by
          rcases hd with h | ⟨j, hj, -⟩
          · exact h
          · omega
        simp only [barOf, a1]
        rw [if_neg (fun h => h.2 hd'), hl, hn]
      · intro hn hd
        have hd' : m0.experiment ∉ done := fun h => hd (Or.inl h)
        simp only [barOf, a1]
        rw [if_pos ⟨hn, hd'⟩, Dict.get?_set, if_pos rfl]
    | succ i =>
      simp only [bars, List.getElem?_cons_succ] at hb hm
      obtain ⟨b1, b2, b3, b4, b5⟩ := ih _ i hb hm
      refine ⟨b1, b2, b3, ?_, ?_⟩
      · intro hn hd
        apply b4 hn
        rw [a2]
        rcases hd with h | ⟨j, hj, m', hm', he⟩
        · left; split
          · simp [h]
          · exact h
        · cases j with
          | zero =>
            simp only [List.getElem?_cons_zero, Option.some.injEq] at hm'
            subst hm'
            left
            rw [he]
            by_cases hx : m.experiment ∈ done
            · split
              · simp [hx]
              · exact hx
            · rw [if_pos ⟨hn, hx⟩]; simp
          | succ j =>
            rw [List.getElem?_cons_succ] at hm'
            exact Or.inr ⟨j, by omega, m', hm', he⟩
      · intro hn hd
        apply b5 hn
        rw [a2]
        intro hx
        apply hd
        rcases hx with h | ⟨j, hj, m', hm', he⟩
        · split at h
          · rcases List.mem_append.1 h with h | h
            · exact Or.inl h
            · right
              refine ⟨0, by omega, m0, by simp, ?_⟩
              simpa using (List.mem_singleton.1 h).symm
          · exact Or.inl h
        · exact Or.inr ⟨j + 1, by omega, m', by simpa using hm', he⟩

/-- **C147 (experimental points).** If `diff_plot_exp` returns (not both filters given), the values returned are,
in order, the wanted values of the included measurements, and there is one `errorbar` call for each measurement
with wanted values, with exactly its points: the value, `scale_factor` times the central value, and
`scale_factor` times the left error downwards and the right error upwards. -/
theorem C147_points (ms : List Meas1) (incM : Option (List String)) (inc exc : Option (List ℝ))
    (h : inc = none ∨ exc = none) (sf : ℝ) (col : Option (Dict String String)) (kwargs : Args) (drawn y xs)
    (hr : diffPlotExp (some 1) ms incM inc exc sf col kwargs = .ok (drawn, y, xs)) :
    xs = (ms.flatMap fun m => (contribX incM inc exc m).map Prod.fst) ∧
    drawn.length = (active incM inc exc ms).length ∧
    ∀ (i : ℕ) m b, (active incM inc exc ms)[i]? = some m → drawn[i]? = some b →
      b.points = (contribX incM inc exc m).map fun e => (e.1, sf * e.2.1, sf * e.2.2.2, sf * e.2.2.1) := by
  obtain ⟨s, hs, hx, hd⟩ := diffLoop_eq incM inc exc h sf col kwargs ms ⟨[], [], [], none⟩
  unfold diffPlotExp at hr
  simp only [checkArgs, ne_eq, not_true, if_false, ok_bind_eq, hs] at hr
  cases hy : s.y with
  | none => rw [hy] at hr; cases hr
  | some y' =>
    rw [hy] at hr
    simp only [Except.ok.injEq, Prod.mk.injEq] at hr
    simp only [List.nil_append] at hx hd
    refine ⟨by rw [← hr.2.2, hx], by rw [← hr.1, hd, bars_length], ?_⟩
    intro i m b hm hb
    rw [← hr.1, hd] at hb
    exact (bars_spec incM inc exc sf col kwargs [] _ i b m hb hm).1

/-- **C147 (colours and legend).** Each measurement is drawn in the colour assigned to its experiment, else in the
user's; a label given by the user is used everywhere; otherwise each experiment is labelled once, at its first
measurement. -/
theorem C147_legend (ms : List Meas1) (incM : Option (List String)) (inc exc : Option (List ℝ))
    (h : inc = none ∨ exc = none) (sf : ℝ) (col : Option (Dict String String)) (kwargs : Args) (drawn y xs)
    (hr : diffPlotExp (some 1) ms incM inc exc sf col kwargs = .ok (drawn, y, xs)) (i : ℕ) (m : Meas1) (b : ErrBar1)
    (hm : (active incM inc exc ms)[i]? = some m) (hb : drawn[i]? = some b) :
    (b.args.get? "c" = ((col.bind fun d => d.get? m.experiment).map PyVal.str).or (kwargs.get? "c")) ∧
    (∀ k, k ≠ "c" → k ≠ "label" → b.args.get? k = kwargs.get? k) ∧
    (kwargs.get? "label" ≠ none → b.args.get? "label" = kwargs.get? "label") ∧
    (kwargs.get? "label" = none →
      (b.args.get? "label" = some (.str m.experiment) ↔
        ∀ j < i, ∀ m', (active incM inc exc ms)[j]? = some m' → m'.experiment ≠ m.experiment) ∧
      (b.args.get? "label" = some (.str m.experiment) ∨ b.args.get? "label" = none)) := by
  obtain ⟨s, hs, hx, hd⟩ := diffLoop_eq incM inc exc h sf col kwargs ms ⟨[], [], [], none⟩
  unfold diffPlotExp at hr
  simp only [checkArgs, ne_eq, not_true, if_false, ok_bind_eq, hs] at hr
  cases hy : s.y with
  | none => rw [hy] at hr; cases hr
  | some y' =>
    rw [hy] at hr
    simp only [Except.ok.injEq, Prod.mk.injEq] at hr
    simp only [List.nil_append] at hx hd
    rw [← hr.1, hd] at hb
    obtain ⟨-, b2, b3, b4, b5⟩ := bars_spec incM inc exc sf col kwargs [] _ i b m hb hm
    refine ⟨?_, ?_, b3, ?_⟩
    · rw [b2 "c" (by decide), withColour_get, if_pos rfl]
    · intro k hk hl
      rw [b2 k hl, withColour_get, if_neg hk]
    · intro hn
      by_cases hc : ∃ j < i, ∃ m', (active incM inc exc ms)[j]? = some m' ∧ m'.experiment = m.experiment
      · have := b4 hn (Or.inr hc)
        refine ⟨?_, Or.inr this⟩
        rw [this]
        constructor
        · intro h; simp at h
        · intro h
          obtain ⟨j, hj, m', hm', he⟩ := hc
          exact absurd he (h j hj m' hm')
      · have := b5 hn (by simpa using hc)
        refine ⟨?_, Or.inl this⟩
        rw [this]
        refine ⟨fun _ => ?_, fun _ => rfl⟩
        intro j hj m' hm' he
        exact hc ⟨j, hj, m', hm', he⟩

/-- **C147 (rejected or undefined).** An observable with another number of arguments raises `ValueError`; both
filters raise `ValueError` as soon as an included measurement has data; and if no measurement has data the
function fails with `UnboundLocalError` instead of drawing nothing. -/
theorem C147_errors (ms : List Meas1) (incM : Option (List String)) (inc exc : List ℝ) (sf : ℝ)
    (col : Option (Dict String String)) (kwargs : Args) (n : ℕ) :
    (n ≠ 1 → ∀ i e, diffPlotExp (some n) ms incM i e sf col kwargs = .error .valueError) ∧
    (∀ m l, ms = m :: l → m.pts ≠ [] → incM = none →
      diffPlotExp (some 1) ms incM (some inc) (some exc) sf col kwargs = .error .valueError) ∧
    ((∀ m ∈ ms, m.pts = []) → ∀ i e, diffPlotExp (some 1) ms incM i e sf col kwargs = .error .unboundLocalError) := by
  refine ⟨?_, ?_, ?_⟩
  · intro hn i e
    simp [diffPlotExp, checkArgs, hn, Bind.bind, Except.bind]
  · rintro m l rfl hp rfl
    cases hpp : m.pts with
    | nil => exact absurd hpp hp
    | cons e r =>
      simp [diffPlotExp, checkArgs, diffLoop, diffStep, skipped, hpp, keptX, keepX, Bind.bind, Except.bind]
  · intro hall i e
    have : ∀ ms : List Meas1, (∀ m ∈ ms, m.pts = []) →
        diffLoop incM i e sf col kwargs ⟨[], [], [], none⟩ ms = .ok ⟨[], [], [], none⟩ := by
      intro ms
      induction ms with
      | nil => intro _; rfl
      | cons m l ih =>
        intro hm
        have h0 := hm m (by simp)
        have hst : diffStep incM i e sf col kwargs ⟨[], [], [], none⟩ m = .ok ⟨[], [], [], none⟩ := by
          unfold diffStep
          simp [h0]
        unfold diffLoop
        rw [hst, ok_bind_eq]
        exact ih (fun m' hm' => hm m' (by simp [hm']))
    unfold diffPlotExp
    simp only [checkArgs, ne_eq, not_true, if_false, ok_bind_eq, this ms hall]

/-! ## Curves -/

theorem update_get (d e : Args) (k : String) : (update d e).get? k = (Dict.get? e.reverse k).or (d.get? k) := by
  unfold update
  rw [Dict.foldl_set_get?]

/-- **C147 (style).** The user's `plotargs` and `fillargs` take precedence over everything; otherwise the curve has
the palette colour, line width 0.6 and the label if there is one, and the filling the lightened colour. -/
theorem C147_style (lighten : String → String) (pts fillX col color label plotargs fillargs flipped r)
    (hp : Dict.WF plotargs) (hf : Dict.WF fillargs)
    (h : likelihoodPlot lighten pts fillX col color label plotargs fillargs flipped = .ok r) :
    ∃ c, getColor col color = .ok c ∧
      (∀ k v, plotargs.get? k = some v → r.curveArgs.get? k = some v) ∧
      (∀ k v, fillargs.get? k = some v → r.fillArgs.get? k = some v) ∧
      (plotargs.get? "color" = none → r.curveArgs.get? "color" = some (.str c)) ∧
      (plotargs.get? "linewidth" = none → r.curveArgs.get? "linewidth" = some (.num 0.6)) ∧
      (plotargs.get? "label" = none → r.curveArgs.get? "label" = label.map PyVal.str) ∧
      (fillargs.get? "facecolor" = none → r.fillArgs.get? "facecolor" = some (.str (lighten c))) := by
  unfold likelihoodPlot at h
  obtain ⟨c, hc, h⟩ := bind_eq_ok h
  injection h with h
  rw [← h]
  have rev : ∀ (d : Args), Dict.WF d → ∀ k, Dict.get? d.reverse k = Dict.get? d k := by
    intro d hd k
    rw [← Dict.get?_ofPairs, Dict.ofPairs_of_nodup d hd]
  refine ⟨c, hc, ?_, ?_, ?_, ?_, ?_, ?_⟩
  · intro k v hk
    simp only [curveArgs, update_get, rev _ hp, hk, Option.some_or]
  · intro k v hk
    simp only [fillArgsOf, update_get, rev _ hf, hk, Option.some_or]
  · intro hk
    simp only [curveArgs, update_get, rev _ hp, hk, Option.none_or, Dict.get?_set, if_true]
  · intro hk
    simp only [curveArgs, update_get, rev _ hp, hk, Option.none_or, Dict.get?_set]
    cases label <;> simp [Dict.get?_set]
  · intro hk
    simp only [curveArgs, update_get, rev _ hp, hk, Option.none_or, Dict.get?_set]
    cases label <;> simp [Dict.get?_set, Dict.get?]
  · intro hk
    simp only [fillArgsOf, update_get, rev _ hf, hk, Option.none_or, Dict.get?_set, if_true]

/-- **C147 (curve and filling of `likelihood_plot`).** The curve consists of the given points, with the axes
exchanged if flipped; filled are exactly the points strictly between the two boundaries, and nothing without
boundaries. -/
theorem C147_likelihood_plot (lighten : String → String) (pts fillX col color label plotargs fillargs flipped r)
    (h : likelihoodPlot lighten pts fillX col color label plotargs fillargs flipped = .ok r) :
    r.curve.length = pts.length ∧
    (∀ (i : ℕ) x y, pts[i]? = some (x, y) → r.curve[i]? = some (if flipped then (y, x) else (x, y))) ∧
    r.vertical = flipped ∧
    (fillX = none ↔ r.filled = none) ∧
    (∀ a b l, fillX = some (a, b) → r.filled = some l → l.Sublist pts ∧
      ∀ p, p ∈ l ↔ p ∈ pts ∧ a < p.1 ∧ p.1 < b) := by
  unfold likelihoodPlot at h
  obtain ⟨c, hc, h⟩ := bind_eq_ok h
  injection h with h
  rw [← h]
  refine ⟨?_, ?_, rfl, ?_, ?_⟩
  · cases flipped <;> simp
  · intro i x y hi
    cases flipped <;> simp [hi]
  · cases fillX <;> simp
  · rintro a b l rfl hl
    simp only [Option.map_some, Option.some.injEq] at hl
    rw [← hl]
    refine ⟨List.filter_sublist, ?_⟩
    intro p
    rw [List.mem_filter, Bool.and_eq_true, decide_eq_true_eq, decide_eq_true_eq]

/-- **C147 (p-value plots).** The curve is the given one; filled are exactly the interpolated points above the
threshold, and nothing without a threshold. -/
theorem C147_pvalue_plot (lighten : String → String) (zoom pts fillY col color label plotargs fillargs r)
    (h : pvaluePlot lighten zoom pts fillY col color label plotargs fillargs = .ok r) :
    r.curve = pts ∧ (fillY = none ↔ r.filled = none) ∧
    (∀ y l, fillY = some y → r.filled = some l → ∀ p, p ∈ l ↔ p ∈ zoom pts ∧ y < p.2) := by
  unfold pvaluePlot at h
  obtain ⟨c, hc, h⟩ := bind_eq_ok h
  injection h with h
  rw [← h]
  refine ⟨rfl, ?_, ?_⟩
  · cases fillY <;> simp
  · rintro y l rfl hl
    simp only [Option.map_some, Option.some.injEq] at hl
    rw [← hl]
    intro p
    rw [List.mem_filter, decide_eq_true_eq]

theorem foldl_max_ge (y : ℝ) (l : List ℝ) : y ≤ l.foldl max y ∧ (∀ v ∈ l, v ≤ l.foldl max y) ∧ l.foldl max y ∈ y :: l := by
  induction l generalizing y with
  | nil => simp
  | cons z l ih =>
    obtain ⟨a1, a2, a3⟩ := ih (max y z)
    refine ⟨(le_max_left y z).trans a1, ?_, ?_⟩
    · intro v hv
      rcases List.mem_cons.1 hv with rfl | hv
      · exact (le_max_right y v).trans a1
      · exact a2 v hv
    · simp only [List.foldl_cons]
      rcases List.mem_cons.1 a3 with h | h
      · rw [h]
        rcases max_choice y z with h' | h' <;> rw [h'] <;> simp
      · simp [h]

/-- **C147 (PDF plots).** The curve of `pdf_plot` consists of `steps` equidistant points of the plot range with the
value of the density there — the PDF, or the exponential of the log-PDF where there is no PDF — divided by the
largest of these values if `normed='max'`; filled is the region between central value minus left and plus right
error. -/
theorem C147_pdf_plot (lighten : String → String) (d : PlotDist) (xMin xMax fill) (steps : ℕ) (normedMax) (col color label plotargs
    fillargs r) (h : pdfPlot lighten d xMin xMax fill steps normedMax col color label plotargs fillargs false = .ok r) :
    ∃ (f : ℝ → ℝ) (N : ℝ), (∀ g, d.pdf = .ok g → f = g) ∧ ((∀ g, d.pdf ≠ .ok g) → ∀ x, f x = Real.exp (d.logpdf x)) ∧
      r.curve = (linspace (pdfRange xMin xMax d.support).1 (pdfRange xMin xMax d.support).2 steps).map
        (fun x => (x, f x / N)) ∧
      (normedMax = false → N = 1) ∧
      (normedMax = true → (∃ x ∈ linspace (pdfRange xMin xMax d.support).1 (pdfRange xMin xMax d.support).2 steps, f x = N) ∧
        ∀ x ∈ linspace (pdfRange xMin xMax d.support).1 (pdfRange xMin xMax d.support).2 steps, f x ≤ N) ∧
      (fill = false → r.filled = none) ∧
      (fill = true → ∃ l, r.filled = some l ∧ ∀ p, p ∈ l ↔ p ∈ r.curve ∧
        d.central - d.errLeft < p.1 ∧ p.1 < d.central + d.errRight) := by
  unfold pdfPlot at h
  simp only [] at h
  generalize hxs : linspace (pdfRange xMin xMax d.support).1 (pdfRange xMin xMax d.support).2 steps = xs at h ⊢
  obtain ⟨ys, hys, h⟩ := bind_eq_ok h
  have hf : ∃ f : ℝ → ℝ, pdfValues d xs = xs.map f ∧ (∀ g, d.pdf = .ok g → f = g) ∧
      ((∀ g, d.pdf ≠ .ok g) → ∀ x, f x = Real.exp (d.logpdf x)) := by
    unfold pdfValues
    cases hd : d.pdf with
    | ok g => exact ⟨g, rfl, (fun g' hg => by injection hg), fun hn => absurd rfl (hn g)⟩
    | error e => exact ⟨fun x => Real.exp (d.logpdf x), rfl, (fun g' hg => by cases hg), fun _ _ => rfl⟩
  obtain ⟨f, hv, hf1, hf2⟩ := hf
  rw [hv] at hys
  have hN : ∃ N : ℝ, ys = xs.map (fun x => f x / N) ∧ (normedMax = false → N = 1) ∧
      (normedMax = true → (∃ x ∈ xs, f x = N) ∧ ∀ x ∈ xs, f x ≤ N) := by
    cases normedMax with
    | false =>
      simp only [Bool.false_eq_true, if_false, Except.ok.injEq] at hys
      exact ⟨1, by rw [← hys]; simp, fun _ => rfl, by simp⟩
    | true =>
      simp only [if_true] at hys
      cases xs with
      | nil => simp [normMax] at hys
      | cons x0 l =>
        simp only [List.map_cons, normMax, Except.ok.injEq] at hys
        obtain ⟨m1, m2, m3⟩ := foldl_max_ge (f x0) (l.map f)
        refine ⟨(l.map f).foldl max (f x0), ?_, by simp, fun _ => ⟨?_, ?_⟩⟩
        · rw [← hys]; simp [Function.comp_def]
        · rw [← List.map_cons] at m3
          obtain ⟨x, hx, he⟩ := List.mem_map.1 m3
          exact ⟨x, hx, he⟩
        · intro x hx
          rcases List.mem_cons.1 hx with rfl | hx
          · exact m1
          · exact m2 _ (List.mem_map.2 ⟨x, hx, rfl⟩)
  obtain ⟨N, hy, n1, n2⟩ := hN
  refine ⟨f, N, hf1, hf2, ?_, n1, n2, ?_, ?_⟩
  · unfold likelihoodPlot at h
    obtain ⟨c, hc, h⟩ := bind_eq_ok h
    injection h with h
    rw [← h, hy]
    simp only [Bool.false_eq_true, if_false]
    exact zip_map_self xs _
  · intro hfill
    have := (C147_likelihood_plot lighten _ _ _ _ _ _ _ _ _ h).2.2.2.1
    exact this.1 (by simp [hfill])
  · intro hfill
    have hcurve : r.curve = xs.zip ys := by
      unfold likelihoodPlot at h
      obtain ⟨c, hc, h⟩ := bind_eq_ok h
      injection h with h
      rw [← h]; rfl
    have hl := (C147_likelihood_plot lighten _ _ _ _ _ _ _ _ _ h)
    rw [hfill] at hl
    simp only [if_true] at hl
    cases hfl : r.filled with
    | none => have := hl.2.2.2.1.2 hfl; simp at this
    | some l =>
      refine ⟨l, rfl, ?_⟩
      have := (hl.2.2.2.2 _ _ l rfl hfl).2
      rw [hcurve]
      exact this

/-- **C147 (box).** `flavio_box` draws the rectangle with the given corners. -/
theorem C147_box (a b c d : ℝ) :
    (flavioBox a b c d).1 = (a, c) ∧
    ((flavioBox a b c d).1.1 + (flavioBox a b c d).2.1, (flavioBox a b c d).1.2 + (flavioBox a b c d).2.2) = (b, d) := by
  simp [flavioBox]

/-- The claim that the values returned are those of all points drawn, as the list of `x` values is.
(Specification.) -/
def ReturnsAllY : Prop :=
  ∀ (ms : List Meas1) (sf : ℝ) (drawn y xs),
    diffPlotExp (some 1) ms none none none sf none [] = .ok (drawn, y, xs) → y.length = xs.length

/-- **C147 (returned values, finding).** The first value returned contains only the points of the last
measurement, whereas the second contains those of all: with two measurements of one point each, one value is
returned for two `x`. -/
theorem C147_y_last_only : ¬ ReturnsAllY := by
  intro h
  have := h [⟨"A", "X", [(1, (2, 1, 1))]⟩, ⟨"B", "Y", [(3, (4, 1, 1))]⟩] 1
    [barOf 1 [(1, (2, 1, 1))] [("label", .str "X")], barOf 1 [(3, (4, 1, 1))] [("label", .str "Y")]] [4] [1, 3] (by
      simp [diffPlotExp, checkArgs, diffLoop, diffStep, skipped, keptX, keepX, Bind.bind, Except.bind, measArgs, Dict.has, Dict.get?,
        Dict.set, barOf])
  simp at this

/-- A concrete case: two measurements of one experiment; only the first is labelled. -/
theorem C147_nonvacuous : ∃ b1 b2 y xs,
    diffPlotExp (some 1) [⟨"A", "X", [(1, (2, 0.5, 0.25))]⟩, ⟨"B", "X", [(3, (4, 1, 1))]⟩] none none none 2 none []
      = .ok ([b1, b2], y, xs) ∧ b1.points = [(1, 4, 0.5, 1)] ∧ b1.args.get? "label" = some (.str "X") ∧
    b2.args.get? "label" = none := by
  refine ⟨barOf 2 [(1, (2, 0.5, 0.25))] [("label", .str "X")], barOf 2 [(3, (4, 1, 1))] [], [2 * 4], [1, 3], ?_, ?_, ?_, ?_⟩
  · simp [diffPlotExp, checkArgs, diffLoop, diffStep, skipped, keptX, keepX, Bind.bind, Except.bind, measArgs, Dict.has, Dict.get?,
        Dict.set, barOf]
  · simp [barOf]; norm_num
  · simp [barOf, Dict.get?]
  · simp [barOf, Dict.get?]

end Verif.Plots
