import Verif.UFunction.Lemmas

/-! # C50: a `ufunction` owns one callable, and never copies it -/
namespace Itlib.UFunction
variable {S A R : Type}

/-- between calls there are no temporaries -/
def lift (f : Nat → Option (Option (Callee S))) : Loc → Option (Option (Callee S))
  | .var x => f x
  | _ => none

theorem lift_update (f : Nat → Option (Option (Callee S))) (x : Nat) (c : Option (Option (Callee S))) (l : Loc) :
    lift (Function.update f x c) l = Function.update (lift f) (.var x) c l := by
  by_cases h : l = .var x
  · subst h; simp [lift]
  · rw [Function.update_of_ne h]
    cases l with
    | var y => 
      have : y ≠ x := by rintro rfl; exact h rfl
      simp [lift, this]
    | _ => rfl

variable (L : Lang S A R) (lib : Lib S) (fails : Nat → Bool)
variable {σ : Loc → Option (Option (Callee S))} {usr : Nat → S} {s : St S}

theorem good_fromWrapper (hlib : lib.Lawful) (h : Good σ usr s) {d : Loc} {v : S} (hd : σ d = none) (ha : σ .arg = none)
    (hda : d ≠ .arg) (hw : σ .wrap = some (some (.obj v))) :
    (∃ s' w, fromWrapper L lib fails d s = .ok () s' ∧
      Good (Function.update (Function.update σ .wrap (some (some (.obj w)))) d (some (some (.obj v)))) usr s') ∨
    ((∃ n, fails n = true) ∧ ∃ s', fromWrapper L lib fails d s = .throw .badAlloc s') := by
  have hdw : d ≠ .wrap := by rintro rfl; rw [hd] at hw; simp at hw
  cases hb : lib.byValue with
  | false =>
    obtain ⟨p, a, h1, h2, h3⟩ := h.fn_obj hw
    by_cases hp : lib.place v copyNoexcept moveNoexcept = .heap
    · by_cases hf : fails s.allocs = true
      · exact .inr ⟨⟨_, hf⟩, { s with allocs := s.allocs + 1 }, by simp [fromWrapper, hb, h1, h3, hp, alloc, hf]⟩
      · left
        obtain ⟨s', e, g⟩ := good_moveObj L (h.allocs (s.allocs + 1)) hd hw (pl := .heap) (by simp)
        exact ⟨s', L.mv v, by simp [fromWrapper, hb, h1, h3, hp, alloc, hf, e], g⟩
    · left
      obtain ⟨s', e, g⟩ := good_moveObj L h hd hw (hlib.copied v moveNoexcept)
      refine ⟨s', L.mv v, ?_, g⟩
      simp only [copyNoexcept] at hp
      simp [fromWrapper, hb, h1, h3, copyNoexcept, hp, e]
  | true =>
    obtain ⟨s1, e1, g1⟩ := good_moveObj L h ha hw (pl := .inlineMoved) (by simp)
    obtain ⟨p, a, h1, h2, h3⟩ := g1.fn_obj (l := .arg) (v := v) (by simp)
    by_cases hp : lib.place v copyNoexcept moveNoexcept = .heap
    · by_cases hf : fails s1.allocs = true
      · exact .inr ⟨⟨_, hf⟩, { s1 with allocs := s1.allocs + 1 }, by simp [fromWrapper, hb, e1, h1, h3, hp, alloc, hf]⟩
      · left
        obtain ⟨s2, e2, g2⟩ := good_moveObj L (g1.allocs (s1.allocs + 1)) (d := d) (src := .arg) (v := v) (by simp [hda, hdw, hd]) (by simp) (pl := .heap) (by simp)
        obtain ⟨s3, e3, g3⟩ := good_drop g2 (l := .arg) (by simp [hda.symm])
        refine ⟨s3, L.mv v, by simp [fromWrapper, hb, e1, h1, h3, hp, alloc, hf, e2, e3], g3.congr ?_⟩
        intro l
        by_cases x1 : l = .arg
        · subst x1; simp [hda.symm, ha]
        · by_cases x2 : l = d
          · subst x2; simp [x1]
          · simp [x1, x2, Function.update_apply]
    · left
      obtain ⟨s2, e2, g2⟩ := good_moveObj L g1 (d := d) (src := .arg) (v := v) (by simp [hda, hdw, hd]) (by simp) (hlib.copied v moveNoexcept)
      obtain ⟨s3, e3, g3⟩ := good_drop g2 (l := .arg) (by simp [hda.symm])
      simp only [copyNoexcept] at hp
      refine ⟨s3, L.mv v, by simp [fromWrapper, hb, e1, h1, h3, hp, copyNoexcept, e2, e3], g3.congr ?_⟩
      intro l
      by_cases x1 : l = .arg
      · subst x1; simp [hda.symm, ha]
      · by_cases x2 : l = d
        · subst x2; simp [x1]
        · simp [x1, x2, Function.update_apply]

variable {L lib fails}

/-- the parameter of a call is there -/
def argOf (y : Spec.Sys S) : Src → Option (Option (Callee S))
  | .byMove u | .byCopy u => some (some (.obj (y.usr u)))
  | _ => none

theorem good_passArg {y : Spec.Sys S} (h : Good (lift y.fn) y.usr s) (src : Src) :
    ∃ s', passArg L src s = .ok () s' ∧
      Good (Function.update (lift y.fn) .param (argOf y src)) (Spec.given L y src) s' := by
  have hself : Good (Function.update (lift y.fn) .param none) y.usr s :=
    h.congr (fun l => by by_cases e : l = .param <;> simp [e, lift])
  cases src with
  | null => exact ⟨s, rfl, hself⟩
  | ptr p => exact ⟨s, rfl, hself⟩
  | byMove u =>
    obtain ⟨s1, e1, g1⟩ := good_mkObj h (d := .param) rfl (y.usr u)
    rw [← h.usr] at e1
    refine ⟨_, by simp [passArg, e1]; rfl, ?_⟩
    have := g1.setUsr (Function.update s1.usr u (L.mv (s1.usr u)))
    rw [g1.usr] at this
    rw [g1.usr]
    exact this
  | byCopy u =>
    obtain ⟨s1, e1, g1⟩ := good_mkObj h (d := .param) rfl (y.usr u)
    rw [← h.usr] at e1
    exact ⟨s1, by simp [passArg, e1], g1⟩

theorem noexcept_ok {m : M (St S) Unit} {s s' : St S} (h : m s = .ok () s') : noexcept_ (R := R) m s = .ok .unit s' := by
  simp [noexcept_, h]

theorem noexcept_throw {m : M (St S) Unit} {s s' : St S} {e : Exc} (h : m s = .throw e s') :
    noexcept_ (R := R) m s = .ok .terminated s' := by
  simp [noexcept_, h]

/-- one call does what the specification says, or an allocation failed and the program ended -/
theorem step_refines (hlib : lib.Lawful) {y y' : Spec.Sys S} {r : Reply R} (h : Good (lift y.fn) y.usr s) {op : Op A}
    (hs : Spec.step L lib.clearFirst y op = some (r, y')) :
    (r ≠ .terminated ∧ ∃ s', exec L lib fails op s = .ok r s' ∧ Good (lift y'.fn) y'.usr s') ∨
    ((∃ n, fails n = true) ∧ ∃ s', exec L lib fails op s = .ok .terminated s') := by
  cases op with
  | default x =>
    simp only [Spec.step, Option.ite_none_right_eq_some, Option.some.injEq, Prod.mk.injEq] at hs
    obtain ⟨h1, rfl, rfl⟩ := hs
    obtain ⟨s', e, g⟩ := good_put h (l := .var x) h1 (t := .none) (c := none) rfl
    exact .inl ⟨by simp, s', by simp [exec, e], g.congr (lift_update _ _ _)⟩
  | create x src =>
    simp only [Spec.step, Option.ite_none_right_eq_some, Option.some.injEq, Prod.mk.injEq] at hs
    obtain ⟨h1, rfl, rfl⟩ := hs
    obtain ⟨s1, e1, g1⟩ := good_passArg (L := L) h src
    have plainCase : ∀ t, argOf y src = none → plain (Spec.value y src) = some t →
        construct L lib fails (.var x) src = put (.var x) t →
        ((Reply.unit (R := R)) ≠ .terminated ∧ ∃ s', exec L lib fails (.create x src) s = .ok .unit s' ∧
          Good (lift (Function.update y.fn x (some (Spec.value y src)))) (Spec.given L y src) s') := by
      intro t ht1 ht2 ht3
      obtain ⟨s2, e2, g2⟩ := good_put g1 (l := .var x) (by simp [lift, h1]) ht2
      refine ⟨by simp, s2, ?_, g2.congr ?_⟩
      · rw [exec, M.bind_apply, e1]
        exact noexcept_ok (by rw [ht3, e2])
      · intro l
        rw [lift_update]
        by_cases x1 : l = .var x
        · subst x1; simp
        · by_cases x2 : l = .param
          · subst x2; simp [lift, ht1]
          · simp [x1, x2]
    have objCase : ∀ v, argOf y src = some (some (.obj v)) → Spec.value y src = some (.obj v) →
        construct L lib fails (.var x) src = (do
          moveObj L .wrap .param .inlineMoved
          fromWrapper L lib fails (.var x)
          drop .wrap
          drop .param) →
        ((Reply.unit (R := R)) ≠ .terminated ∧ ∃ s', exec L lib fails (.create x src) s = .ok .unit s' ∧
          Good (lift (Function.update y.fn x (some (Spec.value y src)))) (Spec.given L y src) s') ∨
        ((∃ n, fails n = true) ∧ ∃ s', exec L lib fails (.create x src) s = .ok .terminated s') := by
      intro v ht1 ht2 ht3
      obtain ⟨s2, e2, g2⟩ := good_moveObj L g1 (d := .wrap) (src := .param) (v := v) (by simp [lift]) (by simp [ht1]) (pl := .inlineMoved) (by simp)
      rcases good_fromWrapper L lib fails hlib g2 (d := .var x) (v := v) (by simp [lift, h1]) (by simp [lift]) (by simp) (by simp) with ⟨s3, w, e3, g3⟩ | ⟨hn, s3, e3⟩
      · left
        obtain ⟨s4, e4, g4⟩ := good_drop g3 (l := .wrap) (by simp)
        obtain ⟨s5, e5, g5⟩ := good_drop g4 (l := .param) (by simp)
        refine ⟨by simp, s5, ?_, g5.congr ?_⟩
        · rw [exec, M.bind_apply, e1]
          exact noexcept_ok (by simp [ht3, e2, e3, e4, e5])
        · intro l
          rw [lift_update, ht2]
          by_cases x1 : l = .var x
          · subst x1; simp
          · by_cases x2 : l = .param
            · subst x2; simp [lift]
            · by_cases x3 : l = .wrap
              · subst x3; simp [lift]
              · simp [x1, x2, x3]
      · refine .inr ⟨hn, s3, ?_⟩
        rw [exec, M.bind_apply, e1]
        exact noexcept_throw (e := .badAlloc) (by simp [ht3, e2, e3])
    cases src with
    | null => exact .inl (plainCase .none rfl rfl rfl)
    | ptr p =>
      cases p with
      | none => exact .inl (plainCase .none rfl rfl rfl)
      | some p => exact .inl (plainCase (.ptr p) rfl rfl rfl)
    | byMove u => exact objCase (y.usr u) rfl rfl rfl
    | byCopy u => exact objCase (y.usr u) rfl rfl rfl
  | assign x src =>
    simp only [Spec.step] at hs
    split_ifs at hs with h1
    simp only [Option.some.injEq, Prod.mk.injEq] at hs
    obtain ⟨rfl, rfl⟩ := hs
    obtain ⟨s1, e1, g1⟩ := good_passArg (L := L) h src
    have hfx : s.fn (.var x) ≠ none := fun e => h1 ((h.fn_none _).mp e)
    obtain ⟨c, hc⟩ := Option.ne_none_iff_exists'.mp h1
    have hstart : ∀ m : M (St S) Unit, assignFrom L lib fails (.var x) src = m →
        exec L lib fails (.assign x src) s = noexcept_ m s1 := by
      intro m hm
      simp [exec, hfx, e1, hm]
    have objCase : ∀ v, argOf y src = some (some (.obj v)) → Spec.value y src = some (.obj v) →
        assignFrom L lib fails (.var x) src = (do
          moveObj L .wrap .param .inlineMoved
          fromWrapper L lib fails .tmp
          swap L .tmp (.var x)
          drop .tmp
          drop .wrap
          drop .param) →
        ((Reply.unit (R := R)) ≠ .terminated ∧ ∃ s', exec L lib fails (.assign x src) s = .ok .unit s' ∧
          Good (lift (Function.update y.fn x (some (Spec.value y src)))) (Spec.given L y src) s') ∨
        ((∃ n, fails n = true) ∧ ∃ s', exec L lib fails (.assign x src) s = .ok .terminated s') := by
      intro v ht1 ht2 ht3
      rw [hstart _ ht3]
      obtain ⟨s2, e2, g2⟩ := good_moveObj L g1 (d := .wrap) (src := .param) (v := v) (by simp [lift]) (by simp [ht1]) (pl := .inlineMoved) (by simp)
      rcases good_fromWrapper L lib fails hlib g2 (d := .tmp) (v := v) (by simp [lift]) (by simp [lift]) (by simp) (by simp) with ⟨s3, w, e3, g3⟩ | ⟨hn, s3, e3⟩
      · left
        obtain ⟨s4, e4, g4⟩ := good_swap L g3 (a := .tmp) (b := .var x) (c := some (.obj v)) (d := c) (by simp) (by simp [lift, hc]) (by simp) (by simp [lift])
        obtain ⟨s5, e5, g5⟩ := good_drop g4 (l := .tmp) (by simp)
        obtain ⟨s6, e6, g6⟩ := good_drop g5 (l := .wrap) (by simp)
        obtain ⟨s7, e7, g7⟩ := good_drop g6 (l := .param) (by simp)
        refine ⟨by simp, s7, noexcept_ok (by simp [e2, e3, e4, e5, e6, e7]), g7.congr ?_⟩
        intro l
        rw [lift_update, ht2]
        by_cases x1 : l = .var x
        · subst x1; simp
        · by_cases x2 : l = .param
          · subst x2; simp [lift]
          · by_cases x3 : l = .wrap
            · subst x3; simp [lift]
            · by_cases x4 : l = .tmp
              · subst x4; simp [lift]
              · simp [x1, x2, x3, x4]
      · exact .inr ⟨hn, s3, noexcept_throw (e := .badAlloc) (by simp [e2, e3])⟩
    cases src with
    | null =>
      left
      obtain ⟨s2, e2, g2⟩ := good_drop g1 (l := .var x) (by simp [lift, hc])
      obtain ⟨s3, e3, g3⟩ := good_put g2 (l := .var x) (by simp) (t := .none) (c := none) rfl
      rw [hstart _ rfl]
      refine ⟨by simp, s3, noexcept_ok (by simp [assignFrom, e2, e3]), g3.congr ?_⟩
      intro l
      rw [lift_update]
      by_cases x1 : l = .var x
      · subst x1; simp [Spec.value]
      · by_cases x2 : l = .param
        · subst x2; simp [lift, argOf]
        · simp [x1, x2]
    | ptr p =>
      left
      obtain ⟨s2, e2, g2⟩ := good_put g1 (l := .tmp) (by simp [lift]) (t := match p with | none => .none | some p => .ptr p) (c := p.map .ptr)
        (by cases p <;> rfl)
      obtain ⟨s3, e3, g3⟩ := good_swap L g2 (a := .tmp) (b := .var x) (c := p.map .ptr) (d := c) (by simp) (by simp [lift, hc]) (by simp) (by simp [lift])
      obtain ⟨s4, e4, g4⟩ := good_drop g3 (l := .tmp) (by simp)
      rw [hstart _ rfl]
      refine ⟨by simp, s4, noexcept_ok (by cases p <;> simp_all [assignFrom]), g4.congr ?_⟩
      intro l
      rw [lift_update]
      by_cases x1 : l = .var x
      · subst x1; simp [Spec.value]
      · by_cases x2 : l = .param
        · subst x2; simp [lift, argOf]
        · by_cases x3 : l = .tmp
          · subst x3; simp [lift]
          · simp [x1, x2, x3]
    | byMove u => exact objCase (y.usr u) rfl rfl rfl
    | byCopy u => exact objCase (y.usr u) rfl rfl rfl
  | moveNew d x =>
    simp only [Spec.step, Option.ite_none_right_eq_some, Option.some.injEq, Prod.mk.injEq] at hs
    obtain ⟨⟨h1, h2⟩, rfl, rfl⟩ := hs
    obtain ⟨c, hc⟩ := Option.ne_none_iff_exists'.mp h2
    obtain ⟨s', e, g⟩ := good_steal L h (d := .var d) (src := .var x) (c := c) h1 hc
    refine .inl ⟨by simp, s', noexcept_ok e, g.congr ?_⟩
    intro l
    simp only [hc]
    rw [lift_update]
    simp only [Function.update_apply, lift_update]
  | moveAssign d x =>
    simp only [Spec.step] at hs
    by_cases h0 : y.fn d = none ∨ y.fn x = none
    · simp [h0] at hs
    simp only [if_neg h0] at hs
    rw [not_or] at h0
    obtain ⟨c, hc⟩ := Option.ne_none_iff_exists'.mp h0.2
    obtain ⟨cd, hcd⟩ := Option.ne_none_iff_exists'.mp h0.1
    left
    by_cases hdx : d = x
    · subst hdx
      simp only [if_pos] at hs
      simp only [Option.some.injEq, Prod.mk.injEq] at hs
      obtain ⟨rfl, rfl⟩ := hs
      refine ⟨by simp, ?_⟩
      cases hcl : lib.clearFirst with
      | true =>
        obtain ⟨s1, e1, g1⟩ := good_drop h (l := .var d) h0.1
        obtain ⟨s2, e2, g2⟩ := good_put g1 (l := .var d) (by simp) (t := .none) (c := none) rfl
        refine ⟨s2, noexcept_ok (by simp [moveAssign, hcl, e1, e2]), g2.congr ?_⟩
        intro l
        simp only [if_true]
        rw [lift_update]
        by_cases x1 : l = .var d
        · subst x1; simp
        · simp [x1]
      | false =>
        obtain ⟨s1, e1, g1⟩ := good_steal L h (d := .tmp) (src := .var d) (c := c) rfl hc
        obtain ⟨s2, e2, g2⟩ := good_swap L g1 (a := .tmp) (b := .var d) (c := c) (d := none) (by simp) (by simp) (by simp) (by simp [lift])
        obtain ⟨s3, e3, g3⟩ := good_drop g2 (l := .tmp) (by simp)
        refine ⟨s3, noexcept_ok (by simp [moveAssign, hcl, e1, e2, e3]), g3.congr ?_⟩
        intro l
        by_cases x1 : l = .var d
        · subst x1; simp [lift, hc]
        · by_cases x2 : l = .tmp
          · subst x2; simp [lift]
          · simp [x1, x2]
    · simp only [if_neg hdx, Option.some.injEq, Prod.mk.injEq] at hs
      obtain ⟨rfl, rfl⟩ := hs
      refine ⟨by simp, ?_⟩
      have hv : Loc.var d ≠ Loc.var x := by simpa using hdx
      cases hcl : lib.clearFirst with
      | true =>
        obtain ⟨s1, e1, g1⟩ := good_drop h (l := .var d) h0.1
        obtain ⟨s2, e2, g2⟩ := good_put g1 (l := .var d) (by simp) (t := .none) (c := none) rfl
        obtain ⟨s3, e3, g3⟩ := good_drop g2 (l := .var d) (by simp)
        obtain ⟨s4, e4, g4⟩ := good_steal L g3 (d := .var d) (src := .var x) (c := c) (by simp) (by simp [Ne.symm hdx, lift, hc])
        refine ⟨s4, noexcept_ok (by simp [moveAssign, hcl, e1, e2, e3, e4, hdx]), g4.congr ?_⟩
        intro l
        simp only [hc]
        rw [lift_update]
        by_cases x1 : l = .var d
        · subst x1; simp
        · rw [Function.update_of_ne x1, Function.update_of_ne x1, lift_update]
          by_cases x2 : l = .var x
          · subst x2; simp
          · simp [x1, x2]
      | false =>
        obtain ⟨s1, e1, g1⟩ := good_steal L h (d := .tmp) (src := .var x) (c := c) rfl hc
        obtain ⟨s2, e2, g2⟩ := good_swap L g1 (a := .tmp) (b := .var d) (c := c) (d := cd) (by simp) (by simp [hdx, lift, hcd]) (by simp) (by simp [lift])
        obtain ⟨s3, e3, g3⟩ := good_drop g2 (l := .tmp) (by simp)
        refine ⟨s3, noexcept_ok (by simp [moveAssign, hcl, e1, e2, e3]), g3.congr ?_⟩
        intro l
        simp only [hc]
        rw [lift_update]
        by_cases x1 : l = .var d
        · subst x1; simp
        · rw [Function.update_of_ne x1, lift_update]
          by_cases x2 : l = .var x
          · subst x2; simp [x1]
          · by_cases x3 : l = .tmp
            · subst x3; simp [lift]
            · simp [x1, x2, x3]
  | call x a =>
    simp only [Spec.step] at hs
    left
    rcases hc : y.fn x with _ | _ | p | v
    · simp [hc] at hs
    · simp only [hc, Option.some.injEq, Prod.mk.injEq] at hs
      obtain ⟨rfl, rfl⟩ := hs
      have := (h.fn_empty (.var x)).mpr hc
      exact ⟨by simp, s, by simp [exec, callFn, this], h⟩
    · simp only [hc, Option.some.injEq, Prod.mk.injEq] at hs
      obtain ⟨rfl, rfl⟩ := hs
      have := h.fn_ptr (l := .var x) hc
      exact ⟨by simp, s, by simp [exec, callFn, this], h⟩
    · simp only [hc] at hs
      obtain ⟨pl, k, h1, h2, h3⟩ := h.fn_obj (l := .var x) hc
      cases hv : L.call v a with
      | none => simp [hv] at hs
      | some q =>
        obtain ⟨r', v'⟩ := q
        simp only [hv, Option.some.injEq, Prod.mk.injEq] at hs
        obtain ⟨rfl, rfl⟩ := hs
        exact ⟨by simp, _, by simp [exec, callFn, h1, h3, hv], (good_set h h1 hc).congr (lift_update _ _ _)⟩
  | test x =>
    simp only [Spec.step] at hs
    left
    rcases hc : y.fn x with _ | _ | p | v
    · simp [hc] at hs
    · simp only [hc, Option.some.injEq, Prod.mk.injEq] at hs
      obtain ⟨rfl, rfl⟩ := hs
      have := (h.fn_empty (.var x)).mpr hc
      exact ⟨by simp, s, by simp [exec, test, this], h⟩
    · simp only [hc, Option.some.injEq, Prod.mk.injEq] at hs
      obtain ⟨rfl, rfl⟩ := hs
      have := h.fn_ptr (l := .var x) hc
      exact ⟨by simp, s, by simp [exec, test, this], h⟩
    · simp only [hc, Option.some.injEq, Prod.mk.injEq] at hs
      obtain ⟨rfl, rfl⟩ := hs
      obtain ⟨pl, k, h1, h2, h3⟩ := h.fn_obj (l := .var x) hc
      exact ⟨by simp, s, by simp [exec, test, h1], h⟩
  | destroy x =>
    simp only [Spec.step] at hs
    split_ifs at hs with h1
    simp only [Option.some.injEq, Prod.mk.injEq] at hs
    obtain ⟨rfl, rfl⟩ := hs
    obtain ⟨s1, e1, g1⟩ := good_drop h (l := .var x) h1
    exact .inl ⟨by simp, s1, by simp [exec, e1], g1.congr (lift_update _ _ _)⟩

theorem good_start (usr : Nat → S) : Good (lift (Spec.start usr).fn) (Spec.start usr).usr (start usr) := by
  refine ⟨?_, ?_, ?_, ?_, rfl, rfl⟩
  · intro l; cases l <;> simp [start, lift, Spec.start, Holds]
  · intro l l' pl pl' a h1; simp [start] at h1
  · intro a ha; simp [start] at ha
  · intro l pl a h1; simp [start] at h1

theorem run_refines (hlib : lib.Lawful) (ops : List (Op A)) : ∀ {y y' : Spec.Sys S} {rs : List (Reply R)} {s : St S},
    Good (lift y.fn) y.usr s → Spec.run L lib.clearFirst ops y = some (rs, y') →
    (∃ s', run L lib fails ops s = .ok rs s' ∧ Good (lift y'.fn) y'.usr s') ∨
    ((∃ n, fails n = true) ∧ ∃ k s', run L lib fails ops s = .ok (rs.take k ++ [.terminated]) s') := by
  induction ops with
  | nil =>
    intro y y' rs s h hs
    simp only [Spec.run, Option.some.injEq, Prod.mk.injEq] at hs
    obtain ⟨rfl, rfl⟩ := hs
    exact .inl ⟨s, rfl, h⟩
  | cons op ops ih =>
    intro y y' rs s h hs
    simp only [Spec.run, Option.bind_eq_bind, Option.bind_eq_some_iff] at hs
    obtain ⟨⟨r, y1⟩, h1, ⟨rs1, y2⟩, h2, h3⟩ := hs
    simp only [Option.some.injEq, Prod.mk.injEq] at h3
    obtain ⟨rfl, rfl⟩ := h3
    rcases step_refines (fails := fails) hlib h h1 with ⟨hr, s1, e1, g1⟩ | ⟨hn, s1, e1⟩
    · have hrun : run L lib fails (op :: ops) s = (do let rs ← run L lib fails ops; pure (r :: rs)) s1 := by
        rw [run, M.bind_apply, e1]
        cases r <;> first | rfl | exact absurd rfl hr
      rcases ih g1 h2 with ⟨s2, e2, g2⟩ | ⟨hn, k, s2, e2⟩
      · exact .inl ⟨s2, by rw [hrun]; simp [e2], g2⟩
      · exact .inr ⟨hn, k + 1, s2, by rw [hrun]; simp [e2]⟩
    · refine .inr ⟨hn, 0, s1, ?_⟩
      simp [run, e1]

/-- **C50.** Every history without allocation failures gives the results of the specification: a call runs the callable
stored last, with the state that earlier calls left in it, an empty `ufunction` throws `bad_function_call`, and only
`nullptr`, null function pointers and moving from it make a `ufunction` empty. This holds for every standard library that
does not move targets in a way that may throw. -/
theorem C50_history (hlib : lib.Lawful) (hok : ∀ n, fails n = false) (usr : Nat → S) (ops : List (Op A)) {rs : List (Reply R)}
    {y : Spec.Sys S} (hs : Spec.run L lib.clearFirst ops (Spec.start usr) = some (rs, y)) :
    ∃ s, run L lib fails ops (start usr) = .ok rs s ∧ s.usr = y.usr := by
  rcases run_refines (fails := fails) hlib ops (good_start usr) hs with ⟨s, e, g⟩ | ⟨⟨n, hn⟩, _⟩
  · exact ⟨s, e, g.usr⟩
  · rw [hok n] at hn; simp at hn

/-- **C50.** If allocations may fail, the program runs as specified until one fails, and then it is terminated: no
exception comes out of a `ufunction` but those of calls. -/
theorem C50_history_alloc (hlib : lib.Lawful) (usr : Nat → S) (ops : List (Op A)) {rs : List (Reply R)} {y : Spec.Sys S}
    (hs : Spec.run L lib.clearFirst ops (Spec.start usr) = some (rs, y)) :
    ∃ s, run L lib fails ops (start usr) = .ok rs s ∨
      (∃ n, fails n = true) ∧ ∃ k, run L lib fails ops (start usr) = .ok (rs.take k ++ [.terminated]) s := by
  rcases run_refines (fails := fails) hlib ops (good_start usr) hs with ⟨s, e, g⟩ | ⟨hn, k, s, e⟩
  · exact ⟨s, .inl e⟩
  · exact ⟨s, .inr ⟨hn, k, e⟩⟩

/-- **C50.** No wrapper is ever copied, and the function objects in memory are the targets of the `ufunction`s, each of
one: nothing is leaked, or destroyed twice (that would be undefined). -/
theorem C50_ownership (hlib : lib.Lawful) (hok : ∀ n, fails n = false) (usr : Nat → S) (ops : List (Op A))
    {rs : List (Reply R)} {y : Spec.Sys S} (hs : Spec.run L lib.clearFirst ops (Spec.start usr) = some (rs, y)) :
    ∃ s, run L lib fails ops (start usr) = .ok rs s ∧ s.copies = 0 ∧
      (∀ a v, s.obj a = some v → ∃! x, ∃ pl, s.fn (.var x) = some (.obj pl a)) ∧
      (∀ x v, y.fn x = some (some (.obj v)) → ∃ pl a, s.fn (.var x) = some (.obj pl a) ∧ s.obj a = some v) ∧
      ((∀ x, y.fn x = none) → ∀ a, s.obj a = none) := by
  rcases run_refines (fails := fails) hlib ops (good_start usr) hs with ⟨s, e, g⟩ | ⟨⟨n, hn⟩, _⟩
  · have own : ∀ a v, s.obj a = some v → ∃ x pl, s.fn (.var x) = some (.obj pl a) := by
      intro a v ha
      obtain ⟨l, pl, hl⟩ := g.own a (by rw [ha]; simp)
      cases l with
      | var x => exact ⟨x, pl, hl⟩
      | _ => exact absurd ((g.fn_none _).mpr rfl) (by rw [hl]; simp)
    refine ⟨s, e, g.nocopy, ?_, ?_, ?_⟩
    · intro a v ha
      obtain ⟨x, pl, hx⟩ := own a v ha
      refine ⟨x, ⟨pl, hx⟩, ?_⟩
      rintro z ⟨pl', hz⟩
      have := g.inj _ _ _ _ _ hz hx
      simpa using this
    · intro x v hx
      obtain ⟨pl, a, h1, _, h3⟩ := g.fn_obj (l := .var x) hx
      exact ⟨pl, a, h1, h3⟩
    · intro hall a
      by_contra hn
      obtain ⟨v, hv⟩ := Option.ne_none_iff_exists'.mp hn
      obtain ⟨x, pl, hx⟩ := own a v hv
      have := (g.fn_none (.var x)).mpr (hall x)
      rw [this] at hx
      simp at hx
  · rw [hok n] at hn; simp at hn

/-- **C50, where it fails.** A function object that must not be called - a null pointer to a function of another type that
`F` can call, for example - is stored as any other: the `ufunction` is not empty, and calling it is undefined behaviour
and not `bad_function_call`. -/
theorem C50_null_pointer_defect (hlib : lib.Lawful) (hok : ∀ n, fails n = false) (usr : Nat → S) (ops : List (Op A))
    {rs : List (Reply R)} {y : Spec.Sys S} (hs : Spec.run L lib.clearFirst ops (Spec.start usr) = some (rs, y))
    (u x : Nat) (a : A) (hx : y.fn x = none) (hnull : L.call (y.usr u) a = none) :
    ∃ s s', run L lib fails ops (start usr) = .ok rs s ∧
      run L lib fails [.create x (.byCopy u), .test x] s = .ok [.unit, .bool true] s' ∧
      exec L lib fails (.call x a) s' = .ub := by
  rcases run_refines (fails := fails) hlib ops (good_start usr) hs with ⟨s, e, g⟩ | ⟨⟨n, hn⟩, _⟩
  · have h2 : Spec.run L lib.clearFirst [.create x (.byCopy u), .test x] y =
        some ([.unit, .bool true], ⟨Function.update y.fn x (some (some (.obj (y.usr u)))), y.usr⟩) := by
      simp [Spec.run, Spec.step, hx, Spec.value, Spec.given]
    rcases run_refines (fails := fails) hlib _ g h2 with ⟨s', e', g'⟩ | ⟨⟨n, hn⟩, _⟩
    · refine ⟨s, s', e, e', ?_⟩
      obtain ⟨pl, k, h3, _, h5⟩ := g'.fn_obj (l := .var x) (v := y.usr u) (by simp [lift])
      simp [exec, callFn, h3, h5, hnull]
    · rw [hok n] at hn; simp at hn
  · rw [hok n] at hn; simp at hn

/-- **C50.** If the library stores this target on the heap and that allocation fails, constructing a `ufunction` ends the
program. -/
theorem C50_alloc_failure (hlib : lib.Lawful) (usr : Nat → S) (ops : List (Op A)) {rs : List (Reply R)} {y : Spec.Sys S}
    (hs : Spec.run L lib.clearFirst ops (Spec.start usr) = some (rs, y)) {s : St S}
    (hr : run L lib fails ops (start usr) = .ok rs s) (u x : Nat)
    (hp : lib.place (y.usr u) false true = .heap) (hf : fails s.allocs = true) :
    ∃ s', exec L lib fails (.create x (.byCopy u)) s = .ok .terminated s' := by
  rcases run_refines (fails := fails) hlib ops (good_start usr) hs with ⟨s', e, g⟩ | ⟨_, k, s', e⟩
  · rw [hr] at e
    simp only [Res.ok.injEq, true_and] at e
    subst e
    have hfx : s.fn (.param) = none := (g.fn_none _).mpr rfl
    have hw : s.fn (.wrap) = none := (g.fn_none _).mpr rfl
    have ha : s.fn (.arg) = none := (g.fn_none _).mpr rfl
    have hu := g.usr
    cases hb : lib.byValue <;>
      simp [exec, passArg, hfx, mkObj, construct, moveObj, fromWrapper, hb, hw, ha, noexcept_, alloc, hf, hp, hu, copyNoexcept, moveNoexcept]
  · exfalso
    rw [hr] at e
    simp only [Res.ok.injEq] at e
    have hterm : ∀ (ops : List (Op A)) (y y' : Spec.Sys S) (rs : List (Reply R)),
        Spec.run L lib.clearFirst ops y = some (rs, y') → Reply.terminated ∉ rs := by
      intro ops
      induction ops with
      | nil => intro y y' rs h; simp only [Spec.run, Option.some.injEq, Prod.mk.injEq] at h; rw [← h.1]; simp
      | cons op ops ih =>
        intro y y' rs h
        simp only [Spec.run, Option.bind_eq_bind, Option.bind_eq_some_iff] at h
        obtain ⟨⟨r, y1⟩, h1, ⟨rs1, y2⟩, h2, h3⟩ := h
        simp only [Option.some.injEq, Prod.mk.injEq] at h3
        obtain ⟨rfl, rfl⟩ := h3
        simp only [List.mem_cons, not_or]
        refine ⟨?_, ih _ _ _ h2⟩
        rintro rfl
        cases op <;> simp only [Spec.step] at h1 <;> (repeat' split at h1) <;> simp at h1
    apply hterm _ _ _ _ hs
    rw [e.1]
    simp

/-! ### The hypotheses hold in concrete cases -/

section Cases

/-- counters that return how often they were called; `none` is a null pointer -/
def counters : Lang (Option Nat) Unit Nat where
  pcall p _ := p
  call v _ := v.map fun n => (n, some (n + 1))
  mv _ := some 0

/-- libstdc++: targets that are not trivially copyable are on the heap -/
def libstdcxx : Lib (Option Nat) := ⟨fun _ c _ => if c then .inlineCopied else .heap, false, false⟩
/-- libraries that store everything inside that can be moved without exceptions -/
def inlineLib : Lib (Option Nat) := ⟨fun _ _ m => if m then .inlineMoved else .heap, true, true⟩

example : libstdcxx.Lawful := ⟨by simp [libstdcxx], by intro v c; cases c <;> simp [libstdcxx]⟩
example : inlineLib.Lawful := ⟨by intro v m; cases m <;> simp [inlineLib], by simp [inlineLib]⟩

/-- a history in which a target is stored, called twice, moved, called, replaced, and destroyed -/
def history : List (Op Unit) :=
  [.create 0 (.byMove 7), .call 0 (), .call 0 (), .default 1, .moveAssign 1 0, .call 1 (), .call 0 (), .test 0,
   .assign 1 (.ptr (some 42)), .call 1 (), .assign 1 .null, .test 1, .destroy 0, .destroy 1]

example : (Spec.run counters false history (Spec.start fun _ => some 5)).map (·.1) =
    some [.unit, .val 5, .val 6, .unit, .unit, .val 7, .badFunctionCall, .bool false, .unit, .val 42, .unit, .bool false,
      .unit, .unit] := by
  simp [history, Spec.run, Spec.step, Spec.start, counters, Spec.value, Spec.given]

/-- The requirement on libraries is needed: one that moves targets inside by copying them, although the type does not say
that copying does not throw, ends the program when a `ufunction` is moved. -/
example : ∃ s, run counters ⟨fun _ _ _ => .inlineCopied, false, false⟩ (fun _ => false)
    [.create 0 (.byMove 7), .moveNew 1 0] (start fun _ => some 5) = .ok [.unit, .terminated] s := by
  simp [run, exec, passArg, mkObj, construct, moveObj, fromWrapper, noexcept_, drop, steal, copyObj, start, counters]

end Cases
end Itlib.UFunction
