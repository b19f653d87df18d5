import Verif.Dict.Model
/-!
# C38 (reloading a distribution from its dictionary): general part and the univariate classes
-/
set_option linter.unusedSectionVars false
set_option linter.unusedSimpArgs false
set_option linter.unusedVariables false
namespace Verif.DistDict
open Verif.Py Verif.Probability

/-- What happens to an argument on the way through `get_dict` and `dict2dist`. (Specification.) -/
def thru (v : PVal) : PVal := convertv (arrayToList v)

/-- (Specification.) -/
def NotDist (v : PVal) : Prop := ∀ c a, v ≠ .dist c a

theorem tolistL_eq (l : List PVal) : tolistL l = l.map tolist := by
  induction l with
  | nil => rfl
  | cons v r ih => simp only [tolistL, List.map_cons, ih]

theorem normL_eq (l : List PVal) : normL l = l.map norm := by
  induction l with
  | nil => rfl
  | cons v r ih => simp only [normL, List.map_cons, ih]

theorem normD_eq (l : List (String × PVal)) : normD l = l.map fun e => (e.1, norm e.2) := by
  induction l with
  | nil => rfl
  | cons v r ih => simp only [normD, List.map_cons, ih]

mutual
theorem norm_tolist : ∀ v : PVal, norm (tolist v) = norm v
  | .seq true l => by simp only [tolist, norm, norm_tolistL l]
  | .seq false l => rfl
  | .none => rfl
  | .int _ => rfl
  | .float _ => rfl
  | .str _ => rfl
  | .dict _ => rfl
  | .dist _ _ => rfl
theorem norm_tolistL : ∀ l : List PVal, normL (tolistL l) = normL l
  | [] => rfl
  | v :: r => by simp only [tolistL, normL, norm_tolist v, norm_tolistL r]
end

theorem arrayToList_seq (b : Bool) (l : List PVal) : arrayToList (.seq b l) = .seq false (l.map tolist) := by
  cases b with
  | true => simp only [arrayToList, tolist, tolistL_eq]
  | false => rfl

theorem thru_seq (b : Bool) (l : List PVal) : thru (.seq b l) = .seq false (l.map tolist) := by
  rw [thru, arrayToList_seq]; rfl

theorem map_norm_tolist (l : List PVal) : normL (l.map tolist) = normL l := by
  rw [← tolistL_eq, norm_tolistL]

/-- Nothing is lost numerically. -/
theorem norm_thru (v : PVal) : norm (thru v) = norm v := by
  cases v with
  | seq b l => rw [thru_seq]; simp only [norm, map_norm_tolist]
  | _ => rfl

theorem num_tolist (v : PVal) : num (tolist v) = num v := by
  cases v with
  | seq b l => cases b <;> rfl
  | _ => rfl

theorem mapM_map {α β γ : Type} (f : α → β) (g : β → Except PyErr γ) (l : List α) :
    (l.map f).mapM g = l.mapM fun a => g (f a) := by
  induction l with
  | nil => rfl
  | cons a r ih => simp only [List.map_cons, List.mapM_cons, ih]

theorem vec_tolist (v : PVal) : vec (tolist v) = vec v := by
  cases v with
  | seq b l =>
    cases b with
    | false => rfl
    | true => simp only [tolist, vec, tolistL_eq, mapM_map, num_tolist]
  | _ => rfl

@[simp] theorem num_thru (v : PVal) : num (thru v) = num v := by
  cases v with
  | seq b l => rw [thru_seq]; rfl
  | _ => rfl

@[simp] theorem optNum_thru (v : PVal) : optNum (thru v) = optNum v := by
  cases v with
  | seq b l => rw [thru_seq]; rfl
  | _ => rfl

@[simp] theorem vec_thru (v : PVal) : vec (thru v) = vec v := by
  cases v with
  | seq b l => rw [thru_seq]; simp only [vec, mapM_map, num_tolist]
  | _ => rfl

@[simp] theorem mat_thru (v : PVal) : mat (thru v) = mat v := by
  cases v with
  | seq b l => rw [thru_seq]; simp only [mat, mapM_map, vec_tolist]
  | _ => rfl

theorem thru_eq_none {v : PVal} (h : thru v = .none) : v = .none := by
  cases v with
  | seq b l => rw [thru_seq] at h; cases h
  | none => rfl
  | int n => exact absurd h (by simp [thru, arrayToList, convertv])
  | _ => cases h

/-! ## The round trip in terms of the constructor -/

theorem params_nodup (c : Cls) : ((params c).map Prod.fst).Nodup := by cases c <;> decide
theorem params_ne_distribution (c : Cls) : "distribution" ∉ (params c).map Prod.fst := by cases c <;> decide

/-- The values of the constructor arguments stored in an object. (Specification.) -/
def argVals (o : Obj) : Except PyErr (List PVal) := (params o.cls).mapM fun p => Dict.getItem o.attrs p.1

theorem mapM_pairs {α β : Type} (g : α → Except PyErr β) (n : α → String) (ps : List α) (vs : List β)
    (h : ps.mapM g = .ok vs) :
    ps.mapM (fun p => g p >>= fun v => .ok (n p, v)) = .ok (List.zipWith (fun p v => (n p, v)) ps vs) := by
  rw [mapM_ok_iff] at h ⊢
  induction h with
  | nil => exact .nil
  | cons h1 _ ih => exact .cons (by rw [h1]; rfl) ih

theorem iterateVal_of_notDist {v : PVal} (h : NotDist v) : iterateVal v = .ok v := by
  cases v with
  | dist c a => exact absurd rfl (h c a)
  | _ => rfl

theorem mapM_id_of {α β : Type} (f : α → Except PyErr β) (g : α → β) (l : List α) (h : ∀ a ∈ l, f a = .ok (g a)) :
    l.mapM f = .ok (l.map g) := by
  rw [mapM_ok_iff]
  induction l with
  | nil => exact .nil
  | cons a r ih => exact .cons (h a (by simp)) (ih fun b hb => h b (by simp [hb]))

theorem forall₂_of_zip {ps : List (String × Bool)} {vs : List PVal} (hl : vs.length = ps.length) :
    List.Forall₂ (fun (p : String × Bool) v => (p.1, v) ∈ List.zipWith (fun (p : String × Bool) v => (p.1, v)) ps vs) ps vs := by
  induction ps generalizing vs with
  | nil => cases vs with
    | nil => exact .nil
    | cons _ _ => simp at hl
  | cons p ps ih => cases vs with
    | nil => simp at hl
    | cons v vs =>
      refine .cons (by simp) ?_
      have := ih (vs := vs) (by simpa using hl)
      exact this.imp fun a b h => by simp only [List.zipWith_cons_cons]; exact List.mem_cons_of_mem _ h

theorem keys_zipWith {ps : List (String × Bool)} {vs : List PVal} (hl : vs.length = ps.length) :
    Dict.keys (List.zipWith (fun (p : String × Bool) v => (p.1, v)) ps vs) = ps.map Prod.fst := by
  induction ps generalizing vs with
  | nil => simp [Dict.keys]
  | cons p ps ih => cases vs with
    | nil => simp at hl
    | cons v vs => simpa [Dict.keys] using ih (vs := vs) (by simpa using hl)

theorem construct_zip (E : Env) (c : Cls) (vs : List PVal) (hl : vs.length = (params c).length) :
    construct E c (List.zipWith (fun (p : String × Bool) v => (p.1, v)) (params c) vs) =
      build E c vs >>= fun a => .ok ⟨c, a⟩ := by
  unfold construct
  rw [if_pos]
  · have : (params c).mapM (bindArg (List.zipWith (fun (p : String × Bool) v => (p.1, v)) (params c) vs)) = .ok vs := by
      rw [mapM_ok_iff]
      refine (forall₂_of_zip hl).imp fun p v h => ?_
      have wf : Dict.WF (List.zipWith (fun (p : String × Bool) v => (p.1, v)) (params c) vs) := by
        unfold Dict.WF; rw [keys_zipWith hl]; exact params_nodup c
      unfold bindArg
      rw [Dict.get?_of_mem wf h]
    rw [this]; rfl
  · rw [keys_zipWith hl, List.all_eq_true]; intro k hk; exact decide_eq_true hk

theorem length_of_mapM_ok {α β : Type} {f : α → Except PyErr β} {l : List α} {r : List β} (h : l.mapM f = .ok r) :
    r.length = l.length := by rw [mapM_ok_iff] at h; exact h.length_eq.symm

/-- What `get_dict(distribution=True, iterate=True, arraytolist=True)` returns. -/
theorem getDict_eq (o : Obj) (vs ws : List PVal) (h : argVals o = .ok vs)
    (hi : vs.mapM iterateVal = .ok ws) :
    ∃ o', getDict true true true o = .ok (("distribution", .str o.cls.toStr) ::
      List.zipWith (fun (p : String × Bool) v => (p.1, v)) (params o.cls) (ws.map arrayToList), o') := by
  have h1 : argDict true o = .ok (("distribution", .str o.cls.toStr) ::
      List.zipWith (fun (p : String × Bool) v => (p.1, v)) (params o.cls) vs) := by
    unfold argDict
    rw [mapM_pairs (fun p : String × Bool => Dict.getItem o.attrs p.1) Prod.fst _ vs h]
    rfl
  unfold getDict
  rw [h1]
  simp only [ok_bind_eq, if_true]
  have h2 : (("distribution", PVal.str o.cls.toStr) ::
      List.zipWith (fun (p : String × Bool) v => (p.1, v)) (params o.cls) vs).mapM
        (fun e => iterateVal e.2 >>= fun v => .ok (e.1, v)) = .ok (("distribution", .str o.cls.toStr) ::
          List.zipWith (fun (p : String × Bool) v => (p.1, v)) (params o.cls) ws) := by
    rw [mapM_ok_iff] at hi ⊢
    refine .cons rfl ?_
    have hl : vs.length = (params o.cls).length := length_of_mapM_ok h
    generalize params o.cls = ps at hl
    clear h h1
    induction hi generalizing ps with
    | nil => simp
    | cons h3 _ ih =>
      cases ps with
      | nil => simp at hl
      | cons p ps =>
        simp only [List.zipWith_cons_cons]
        exact .cons (by simp [h3]) (ih ps (by simpa using hl))
  rw [h2]
  simp only [ok_bind_eq]
  refine ⟨_, congrArg Except.ok (Prod.ext ?_ rfl)⟩
  show List.map _ _ = _ :: _
  rw [List.map_cons]
  refine congrArg₂ List.cons rfl ?_
  have : List.length ws = (params o.cls).length := by
    rw [length_of_mapM_ok hi]; exact length_of_mapM_ok h
  clear h2 h1 h hi
  generalize params o.cls = ps at this
  induction ps generalizing ws with
  | nil => simp
  | cons p ps ih => cases ws with
    | nil => simp at this
    | cons w ws => simpa using ih ws (by simpa using this)

theorem filter_zip (c : Cls) (ws : List PVal) :
    (List.zipWith (fun (p : String × Bool) (v : PVal) => (p.1, v)) (params c) ws).filter
      (fun e => decide (e.1 ≠ "distribution")) = List.zipWith (fun (p : String × Bool) v => (p.1, v)) (params c) ws := by
  rw [List.filter_eq_self]
  intro e he
  have : e.1 ∈ (params c).map Prod.fst := by
    generalize params c = ps at he ⊢
    induction ps generalizing ws with
    | nil => simp at he
    | cons p ps ih => cases ws with
      | nil => simp at he
      | cons w ws =>
        simp only [List.zipWith_cons_cons, List.mem_cons] at he
        rcases he with rfl | he
        · simp
        · exact List.mem_cons_of_mem _ (ih ws he)
  simp only [decide_eq_true_eq]
  intro h; rw [h] at this; exact params_ne_distribution c this

/-- The reloaded object is what the constructor returns for the converted values. -/
theorem roundTrip_iter (E : Env) (o : Obj) (vs ws : List PVal) (h : argVals o = .ok vs)
    (hi : vs.mapM iterateVal = .ok ws) :
    roundTrip E o = build E o.cls (ws.map thru) >>= fun a => .ok [⟨o.cls, a⟩] := by
  obtain ⟨o', ho⟩ := getDict_eq o vs ws h hi
  unfold roundTrip
  rw [ho]
  simp only [ok_bind_eq, dict2dist]
  have hh : ∀ d : Dict String PVal, Dict.getItem (("distribution", PVal.str o.cls.toStr) :: d) "distribution" =
      .ok (.str o.cls.toStr) := by intro d; simp [Dict.getItem, Dict.get?]
  rw [hh]
  simp only [ok_bind_eq]
  have hc : Dict.getItem classFromString o.cls.toStr = .ok o.cls := by
    simp [Dict.getItem, C39_class_from_string]
  rw [hc]
  simp only [ok_bind_eq, List.filter_cons, ne_eq, not_true_eq_false, decide_false, Bool.false_eq_true, if_false]
  have := filter_zip o.cls (ws.map arrayToList)
  simp only [ne_eq] at this
  rw [this, List.map_zipWith]
  have e : List.zipWith (fun (x : String × Bool) (y : PVal) => (x.1, convertv y)) (params o.cls) (ws.map arrayToList) =
      List.zipWith (fun (p : String × Bool) v => (p.1, v)) (params o.cls) (ws.map thru) := by
    simp only [List.zipWith_map_right]; rfl
  rw [e, construct_zip]
  · cases build E o.cls (ws.map thru) <;> rfl
  · rw [List.length_map, length_of_mapM_ok hi]; exact length_of_mapM_ok h

theorem mapM_iterate_notDist (vs : List PVal) (hn : ∀ v ∈ vs, NotDist v) : vs.mapM iterateVal = .ok vs := by
  have := mapM_id_of iterateVal id vs fun v hv => iterateVal_of_notDist (hn v hv)
  simpa using this

/-- Without nested distributions. -/
theorem roundTrip_eq (E : Env) (o : Obj) (vs : List PVal) (h : argVals o = .ok vs) (hn : ∀ v ∈ vs, NotDist v) :
    roundTrip E o = build E o.cls (vs.map thru) >>= fun a => .ok [⟨o.cls, a⟩] :=
  roundTrip_iter E o vs vs h (mapM_iterate_notDist vs hn)

/-- **C38** for one object: reloading succeeds and gives an equal distribution. (Specification.) -/
def Reloads (E : Env) (o : Obj) : Prop := ∃ o', roundTrip E o = .ok [o'] ∧ Same o o'

theorem reloads_of_build (E : Env) (c : Cls) (a a' : Dict String PVal) (vs : List PVal)
    (h : argVals ⟨c, a⟩ = .ok vs) (hn : ∀ v ∈ vs, NotDist v)
    (hb : build E c (vs.map thru) = .ok a') (he : normD a = normD a') : Reloads E ⟨c, a⟩ := by
  refine ⟨⟨c, a'⟩, ?_, rfl, he⟩
  rw [roundTrip_eq E _ vs h hn]
  show build E c (vs.map thru) >>= _ = _
  rw [hb]; rfl

/-- Arguments of a successful call. -/
theorem construct_ok {E : Env} {c : Cls} {kw : Dict String PVal} {o : Obj} (h : construct E c kw = .ok o) :
    ∃ args, (params c).mapM (bindArg kw) = .ok args ∧ build E c args = .ok o.attrs ∧ o.cls = c := by
  unfold construct at h
  split at h
  · obtain ⟨args, h1, h2⟩ := bind_eq_ok h
    obtain ⟨at', h3, h4⟩ := bind_eq_ok h2
    cases h4
    exact ⟨args, h1, h3, rfl⟩
  · cases h

theorem num_notDist {v : PVal} {r : ℝ} (h : num v = .ok r) : NotDist v := by
  rintro c a rfl; cases h
theorem vec_notDist {v : PVal} {r : List ℝ} (h : vec v = .ok r) : NotDist v := by
  rintro c a rfl; cases h
theorem float_notDist (r : ℝ) : NotDist (.float r) := by rintro c a h; cases h
theorem int_notDist (r : ℤ) : NotDist (.int r) := by rintro c a h; cases h
theorem seq_notDist (b : Bool) (l : List PVal) : NotDist (.seq b l) := by rintro c a h; cases h

@[simp] theorem num_float (r : ℝ) : num (.float r) = .ok r := rfl
@[simp] theorem num_int (r : ℤ) : num (.int r) = .ok (r : ℝ) := rfl
@[simp] theorem optNum_float (r : ℝ) : optNum (.float r) = .ok (some r) := rfl
@[simp] theorem optNum_int (r : ℤ) : optNum (.int r) = .ok (some (r : ℝ)) := rfl

theorem build_uniform (E : Env) {args : List PVal} {at' : Dict String PVal} (h : build E .uniform args = .ok at') :
    Reloads E ⟨.uniform, at'⟩ := by
  match args, h with
  | [c, w], h =>
    replace h : bUniform c w = .ok at' := h
    unfold bUniform at h
    obtain ⟨c', hc, h⟩ := bind_eq_ok h
    obtain ⟨w', hw, h⟩ := bind_eq_ok h
    obtain ⟨d, hd, h⟩ := bind_eq_ok h
    cases h
    refine reloads_of_build E _ _ (uniAttrs d [("central_value", thru c), ("half_range", thru w)]) [c, w] rfl ?_ ?_ ?_
    · simp only [List.mem_cons, List.not_mem_nil, or_false]
      rintro v (rfl | rfl)
      · exact num_notDist hc
      · exact num_notDist hw
    · show bUniform (thru c) (thru w) = _
      simp only [bUniform, num_thru, hc, hw, hd, ok_bind_eq]
    · simp only [uniAttrs, List.cons_append, List.nil_append, normD, norm_thru]

theorem build_delta (E : Env) {args : List PVal} {at' : Dict String PVal} (h : build E .delta args = .ok at') :
    Reloads E ⟨.delta, at'⟩ := by
  match args, h with
  | [c], h =>
    replace h : bDelta c = .ok at' := h
    unfold bDelta at h
    obtain ⟨c', hc, h⟩ := bind_eq_ok h
    obtain ⟨d, hd, h⟩ := bind_eq_ok h
    cases h
    refine reloads_of_build E _ _ (uniAttrs d [("central_value", thru c)]) [c] rfl ?_ ?_ ?_
    · simp only [List.mem_cons, List.not_mem_nil, or_false]
      rintro v rfl
      exact num_notDist hc
    · show bDelta (thru c) = _
      simp only [bDelta, num_thru, hc, hd, ok_bind_eq]
    · simp only [uniAttrs, List.cons_append, List.nil_append, normD, norm_thru]

theorem build_normal (E : Env) {args : List PVal} {at' : Dict String PVal} (h : build E .normal args = .ok at') :
    Reloads E ⟨.normal, at'⟩ := by
  match args, h with
  | [c, s], h =>
    replace h : bNormal c s = .ok at' := h
    unfold bNormal at h
    obtain ⟨c', hc, h⟩ := bind_eq_ok h
    obtain ⟨s', hs, h⟩ := bind_eq_ok h
    obtain ⟨d, hd, h⟩ := bind_eq_ok h
    cases h
    refine reloads_of_build E _ _ (uniAttrs d [("central_value", thru c), ("standard_deviation", thru s)]) [c, s] rfl ?_ ?_ ?_
    · simp only [List.mem_cons, List.not_mem_nil, or_false]
      rintro v (rfl | rfl)
      · exact num_notDist hc
      · exact num_notDist hs
    · show bNormal (thru c) (thru s) = _
      simp only [bNormal, num_thru, hc, hs, hd, ok_bind_eq]
    · simp only [uniAttrs, List.cons_append, List.nil_append, normD, norm_thru]

theorem build_logNormal (E : Env) {args : List PVal} {at' : Dict String PVal} (h : build E .logNormal args = .ok at') :
    Reloads E ⟨.logNormal, at'⟩ := by
  match args, h with
  | [c, f], h =>
    replace h : bLogNormal c f = .ok at' := h
    unfold bLogNormal at h
    obtain ⟨c', hc, h⟩ := bind_eq_ok h
    obtain ⟨f', hf, h⟩ := bind_eq_ok h
    obtain ⟨d, hd, h⟩ := bind_eq_ok h
    cases h
    refine reloads_of_build E _ _ (uniAttrs d [("central_value", thru c), ("factor", thru f)]) [c, f] rfl ?_ ?_ ?_
    · simp only [List.mem_cons, List.not_mem_nil, or_false]
      rintro v (rfl | rfl)
      · exact num_notDist hc
      · exact num_notDist hf
    · show bLogNormal (thru c) (thru f) = _
      simp only [bLogNormal, num_thru, hc, hf, hd, ok_bind_eq]
    · simp only [uniAttrs, List.cons_append, List.nil_append, normD, norm_thru]

theorem build_asymmetricNormal (E : Env) {args : List PVal} {at' : Dict String PVal} (h : build E .asymmetricNormal args = .ok at') :
    Reloads E ⟨.asymmetricNormal, at'⟩ := by
  match args, h with
  | [c, r, l], h =>
    replace h : bAsym c r l = .ok at' := h
    unfold bAsym at h
    obtain ⟨c', hc, h⟩ := bind_eq_ok h
    obtain ⟨r', hr, h⟩ := bind_eq_ok h
    obtain ⟨l', hl, h⟩ := bind_eq_ok h
    obtain ⟨d, hd, h⟩ := bind_eq_ok h
    cases h
    refine reloads_of_build E _ _ (uniAttrs d [("central_value", thru c), ("right_deviation", thru r), ("left_deviation", thru l)]) [c, r, l] rfl ?_ ?_ ?_
    · simp only [List.mem_cons, List.not_mem_nil, or_false]
      rintro v (rfl | rfl | rfl)
      · exact num_notDist hc
      · exact num_notDist hr
      · exact num_notDist hl
    · show bAsym (thru c) (thru r) (thru l) = _
      simp only [bAsym, num_thru, hc, hr, hl, hd, ok_bind_eq]
    · simp only [uniAttrs, List.cons_append, List.nil_append, normD, norm_thru]

theorem build_halfNormal (E : Env) {args : List PVal} {at' : Dict String PVal} (h : build E .halfNormal args = .ok at') :
    Reloads E ⟨.halfNormal, at'⟩ := by
  match args, h with
  | [c, s], h =>
    replace h : bHalf c s = .ok at' := h
    unfold bHalf at h
    obtain ⟨c', hc, h⟩ := bind_eq_ok h
    obtain ⟨s', hs, h⟩ := bind_eq_ok h
    obtain ⟨d, hd, h⟩ := bind_eq_ok h
    cases h
    refine reloads_of_build E _ _ (uniAttrs d [("central_value", thru c), ("standard_deviation", thru s)]) [c, s] rfl ?_ ?_ ?_
    · simp only [List.mem_cons, List.not_mem_nil, or_false]
      rintro v (rfl | rfl)
      · exact num_notDist hc
      · exact num_notDist hs
    · show bHalf (thru c) (thru s) = _
      simp only [bHalf, num_thru, hc, hs, hd, ok_bind_eq]
    · simp only [uniAttrs, List.cons_append, List.nil_append, normD, norm_thru]

theorem build_gamma (E : Env) {args : List PVal} {at' : Dict String PVal} (h : build E .gamma args = .ok at') :
    Reloads E ⟨.gamma, at'⟩ := by
  match args, h with
  | [a, l, s], h =>
    replace h : bGamma a l s = .ok at' := h
    unfold bGamma at h
    obtain ⟨a', ha, h⟩ := bind_eq_ok h
    obtain ⟨l', hl, h⟩ := bind_eq_ok h
    obtain ⟨s', hs, h⟩ := bind_eq_ok h
    obtain ⟨d, hd, h⟩ := bind_eq_ok h
    cases h
    refine reloads_of_build E _ _ ([("central_value", .float d.mode), ("a", thru a), ("loc", thru l), ("scale", thru s)]) [a, l, s] rfl ?_ ?_ ?_
    · simp only [List.mem_cons, List.not_mem_nil, or_false]
      rintro v (rfl | rfl | rfl)
      · exact num_notDist ha
      · exact num_notDist hl
      · exact num_notDist hs
    · show bGamma (thru a) (thru l) (thru s) = _
      simp only [bGamma, num_thru, ha, hl, hs, hd, ok_bind_eq]
    · simp only [uniAttrs, List.cons_append, List.nil_append, normD, norm_thru]

theorem build_gammaPositive (E : Env) {args : List PVal} {at' : Dict String PVal} (h : build E .gammaPositive args = .ok at') :
    Reloads E ⟨.gammaPositive, at'⟩ := by
  match args, h with
  | [a, l, s], h =>
    replace h : bGammaPos a l s = .ok at' := h
    unfold bGammaPos at h
    obtain ⟨a', ha, h⟩ := bind_eq_ok h
    obtain ⟨l', hl, h⟩ := bind_eq_ok h
    obtain ⟨s', hs, h⟩ := bind_eq_ok h
    obtain ⟨d, hd, h⟩ := bind_eq_ok h
    cases h
    refine reloads_of_build E _ _ ([("central_value", .float d.modePos), ("a", thru a), ("loc", thru l), ("scale", thru s)]) [a, l, s] rfl ?_ ?_ ?_
    · simp only [List.mem_cons, List.not_mem_nil, or_false]
      rintro v (rfl | rfl | rfl)
      · exact num_notDist ha
      · exact num_notDist hl
      · exact num_notDist hs
    · show bGammaPos (thru a) (thru l) (thru s) = _
      simp only [bGammaPos, num_thru, ha, hl, hs, hd, ok_bind_eq]
    · simp only [uniAttrs, List.cons_append, List.nil_append, normD, norm_thru]


/-- `GaussianUpperLimit` -/
theorem build_gaussianUpperLimit (E : Env) {args : List PVal} {at' : Dict String PVal}
    (h : build E .gaussianUpperLimit args = .ok at') : Reloads E ⟨.gaussianUpperLimit, at'⟩ := by
  match args, h with
  | [l, cl], h =>
    replace h : bLimit E l cl = .ok at' := h
    unfold bLimit at h
    obtain ⟨l', hl, h⟩ := bind_eq_ok h
    obtain ⟨cl', hcl, h⟩ := bind_eq_ok h
    obtain ⟨d, hd, h⟩ := bind_eq_ok h
    cases d with
    | gaussianLimit x y s =>
      cases h
      refine reloads_of_build E _ _ (uniAttrs (.gaussianLimit x y s) [("central_value", .int 0),
        ("standard_deviation", .float s), ("limit", thru l), ("confidence_level", thru cl)]) [l, cl] rfl ?_ ?_ ?_
      · simp only [List.mem_cons, List.not_mem_nil, or_false]
        rintro v (rfl | rfl)
        · exact num_notDist hl
        · exact num_notDist hcl
      · show bLimit E (thru l) (thru cl) = _
        simp only [bLimit, num_thru, hl, hcl, hd, ok_bind_eq]
      · simp only [uniAttrs, List.cons_append, List.nil_append, normD, norm_thru]
    | _ => cases h

theorem trunc_mono {a b : ℝ} (h : a ≤ b) : trunc a ≤ trunc b := by
  unfold trunc
  split <;> split
  · exact Int.ceil_mono h
  · have h1 : ⌈a⌉ ≤ 0 := Int.ceil_le.2 (by push_cast; linarith)
    have h2 : (0 : ℤ) ≤ ⌊b⌋ := Int.floor_nonneg.2 (by linarith)
    exact h1.trans h2
  · linarith
  · exact Int.floor_mono h

@[simp] theorem trunc_intCast (n : ℤ) : trunc (n : ℝ) = n := by
  unfold trunc; split <;> simp

/-- The default central value of a discrete uniform distribution lies in the range if the range is not empty. -/
theorem trunc_mid {lo hi : ℝ} (h : lo ≤ hi) : trunc lo ≤ trunc ((lo + hi) / 2) ∧ trunc ((lo + hi) / 2) ≤ trunc hi :=
  ⟨trunc_mono (by linarith), trunc_mono (by linarith)⟩

/-- `DiscreteUniformDistribution` -/
theorem build_discrete (E : Env) {lo hi c : PVal} {lo' hi' : ℝ} {at' : Dict String PVal}
    (h : build E .discreteUniform [lo, hi, c] = .ok at') (hlo : num lo = .ok lo') (hhi : num hi = .ok hi')
    (hle : lo' ≤ hi') : Reloads E ⟨.discreteUniform, at'⟩ := by
  replace h : bDiscrete lo hi c = .ok at' := h
  unfold bDiscrete at h
  simp only [hlo, hhi, ok_bind_eq] at h
  obtain ⟨c', hc, h⟩ := bind_eq_ok h
  have key : ∀ k : ℤ, (k = 0 ∨ (trunc lo' ≤ k ∧ k ≤ trunc hi')) →
      Reloads E ⟨.discreteUniform, [("lowest_value", .int (trunc lo')), ("highest_value", .int (trunc hi')),
        ("central_value", .int k)]⟩ := by
    intro k hk
    refine reloads_of_build E _ _ _ [.int (trunc lo'), .int (trunc hi'), .int k] rfl ?_ ?_ rfl
    · simp only [List.mem_cons, List.not_mem_nil, or_false]
      rintro v (rfl | rfl | rfl) <;> exact int_notDist _
    · show bDiscrete (thru (.int (trunc lo'))) (thru (.int (trunc hi'))) (thru (.int k)) = _
      simp only [bDiscrete, num_thru, optNum_thru, num_int, optNum_int, ok_bind_eq, trunc_intCast]
      rw [if_neg]
      rintro ⟨h0, h1⟩
      rcases hk with rfl | ⟨h2, h3⟩
      · exact h0 (by norm_num)
      · rcases h1 with h1 | h1
        · exact absurd h3 (not_le.2 (by exact_mod_cast h1))
        · exact absurd h2 (not_le.2 (by exact_mod_cast h1))
  match c', h with
  | none, h =>
    simp only [Except.ok.injEq] at h
    rw [← h]; exact key _ (.inr (trunc_mid hle))
  | some c', h =>
    simp only at h
    split at h
    · cases h
    · rename_i hn
      simp only [Except.ok.injEq] at h
      rw [← h]; apply key
      by_cases h0 : c' = 0
      · left; rw [h0]; exact_mod_cast trunc_intCast 0
      · right
        have : ¬(hi' < c' ∨ c' < lo') := fun hh => hn ⟨h0, hh⟩
        push Not at this
        exact ⟨trunc_mono this.2, trunc_mono this.1⟩

/-- `NumericalDistribution`: the stored central value is accepted again. -/
theorem num_mk_again {x y : List ℝ} {c : Option ℝ} {d : Num ℝ} (hx : x.Pairwise (· ≤ ·)) (h : Num.mk' x y c = .ok d) :
    Num.mk' x y (some d.central) = .ok d := by
  unfold Num.mk' at h ⊢
  obtain ⟨k, hk, hf⟩ := bind_eq_ok h
  have hd : d.central = k := by
    unfold finishNum at hf
    split at hf
    · cases hf
    · split at hf
      · cases hf
      · cases hf; rfl
  have : chooseCentral x y (some k) = .ok k := by
    match x, hx, hk, hf with
    | [], _, _, hf => cases hf
    | x0 :: r, hx, hk, hf =>
      simp only [chooseCentral]
      rw [if_pos]
      cases c with
      | some c =>
        simp only [chooseCentral] at hk
        split at hk
        · cases hk; assumption
        · cases hk
      | none =>
        simp only [chooseCentral] at hk
        obtain ⟨i, hi, hk⟩ := bind_eq_ok hk
        have hm : k ∈ x0 :: r := by
          split at hk
          · rename_i hh; cases hk; exact List.mem_of_getElem? hh
          · cases hk
        refine ⟨?_, ?_⟩
        · rcases List.mem_cons.1 hm with rfl | hm
          · exact le_refl _
          · exact (List.pairwise_cons.1 hx).1 _ hm
        · exact hx.rel_getLast hm
  rw [hd, this]; exact hf

theorem build_numerical (E : Env) {x y c : PVal} {x' : List ℝ} {at' : Dict String PVal}
    (h : build E .numerical [x, y, c] = .ok at') (hx : vec x = .ok x') (hs : x'.Pairwise (· ≤ ·)) :
    Reloads E ⟨.numerical, at'⟩ := by
  replace h : bNumerical x y c = .ok at' := h
  unfold bNumerical at h
  simp only [hx, ok_bind_eq] at h
  obtain ⟨y', hy, h⟩ := bind_eq_ok h
  obtain ⟨c', hc, h⟩ := bind_eq_ok h
  obtain ⟨d, hd, h⟩ := bind_eq_ok h
  cases h
  refine reloads_of_build E _ _ ([("x", thru x), ("y", thru y), ("central_value", .float d.central)] ++ numTable d)
    [x, y, .float d.central] rfl ?_ ?_ ?_
  · simp only [List.mem_cons, List.not_mem_nil, or_false]
    rintro v (rfl | rfl | rfl)
    · exact vec_notDist hx
    · exact vec_notDist hy
    · exact float_notDist _
  · show bNumerical (thru x) (thru y) (thru (.float d.central)) = _
    simp only [bNumerical, vec_thru, optNum_thru, optNum_float, hx, hy, ok_bind_eq, num_mk_again hs hd]
  · simp only [numTable, List.cons_append, List.nil_append, normD, norm_thru]

/-! ## Gamma-type distributions -/

/-- A resolved triple is accepted again. -/
theorem resolveCounts_again {t b s : Option ℝ} {c : Counts} (h : resolveCounts t b s = .ok c) (h0 : 0 ≤ c.total)
    (h1 : 0 ≤ c.background) (h2 : ¬ badTriple (some c.total) (some c.background) (some c.signal)) :
    resolveCounts (some c.total) (some c.background) (some c.signal) = .ok c := by
  unfold resolveCounts
  rw [if_neg, if_neg, if_neg h2, if_neg]
  · simp [countNone]
  · rintro ⟨x, hx, hlt⟩; cases hx; linarith
  · rintro ⟨x, hx, hlt⟩; cases hx; linarith

end Verif.DistDict
