import Verif.MakePtr.Lemmas

/-! # C78: make_shared and make_unique -/
namespace Itlib.MakePtr
open Itlib
variable {V : Type}

theorem CI.mono {g : Loc → Nat} {C : Nat → Option (Ctl V)} {n : Nat} (h : CI g C n) : CI g C (n + 1) :=
  ⟨h.cnt, fun q c hq => by have := h.obj q c hq; exact ⟨this.1, by omega, this.2.2⟩, by omega⟩

theorem UI.mono {g : Loc → Nat} {H : Nat → Option (Option V)} {n : Nat} (h : UI g H n) : UI g H (n + 1) :=
  ⟨h.inj, h.obj, fun q hq => by have := h.own q hq; exact ⟨this.1, by omega, this.2.2⟩, by omega⟩

theorem UI.fresh {g : Loc → Nat} {H : Nat → Option (Option V)} {n : Nat} (h : UI g H n) : H n = none := by
  by_contra hc
  have := (h.own n hc).2.1
  omega

theorem CI.fresh {g : Loc → Nat} {C : Nat → Option (Ctl V)} {n : Nat} (h : CI g C n) : C n = none := by
  cases hc : C n with
  | none => rfl
  | some c => have := (h.obj n c hc).2.1; omega

theorem UI.lt {g : Loc → Nat} {H : Nat → Option (Option V)} {n : Nat} (h : UI g H n) (l : Loc) : g l < n := by
  by_cases h0 : g l = 0
  · have := h.pos; omega
  · obtain ⟨v, hv⟩ := h.obj l h0
    exact (h.own (g l) (by simp [hv])).2.1

theorem CI.lt {g : Loc → Nat} {C : Nat → Option (Ctl V)} {n : Nat} (h : CI g C n) (l : Loc) : g l < n := by
  by_cases h0 : g l = 0
  · have := h.pos; omega
  · obtain ⟨v, k, hv⟩ := h.owned h0
    exact (h.obj (g l) _ hv).2.1

/-- a unique pointer is emptied -/
theorem deleteU_ok (s : St V) (l : Loc) (n : Nat) (h : UI s.u s.heap n) : ∃ H',
    deleteU (s.u l) { s with u := Function.update s.u l 0 } = .ok () { s with u := Function.update s.u l 0, heap := H' } ∧
    UI (Function.update s.u l 0) H' n ∧ ∀ q, (∃ p, Function.update s.u l 0 p = q) → H' q = s.heap q := by
  by_cases h0 : s.u l = 0
  · refine ⟨s.heap, by simp [deleteU, h0], ?_, fun _ _ => rfl⟩
    rw [update_zero h0]; exact h
  · obtain ⟨v, hv⟩ := h.obj l h0
    have other : ∀ p, p ≠ l → s.u p ≠ s.u l := fun p hp e => hp (h.inj l p e.symm h0).symm
    have keep : ∀ q, (∃ p, Function.update s.u l 0 p = q) → Function.update s.heap (s.u l) none q = s.heap q := by
      rintro q ⟨p, rfl⟩
      by_cases hp : p = l
      · subst hp; simp [Ne.symm h0]
      · simp [hp, other p hp]
    refine ⟨Function.update s.heap (s.u l) none, by simp [deleteU, h0, endU, freeU, hv], ⟨?_, ?_, ?_, h.pos⟩, keep⟩
    · intro a b hab ha
      by_cases e : a = l
      · subst e; simp at ha
      · by_cases e' : b = l
        · subst e'
          simp only [Function.update_of_ne e, Function.update_self] at hab ha
          exact absurd hab ha
        · simp only [Function.update_of_ne e, Function.update_of_ne e'] at hab ha
          exact h.inj a b hab ha
    · intro p hp
      by_cases e : p = l
      · subst e; simp at hp
      · rw [keep _ ⟨p, rfl⟩]
        simp only [Function.update_of_ne e] at hp ⊢
        exact h.obj p hp
    · intro q hq
      by_cases e : q = s.u l
      · subst e; simp at hq
      · rw [Function.update_of_ne e] at hq
        obtain ⟨h1, h2, p, hp⟩ := h.own q hq
        refine ⟨h1, h2, p, ?_⟩
        rw [Function.update_of_ne]
        · exact hp
        · rintro rfl; exact e hp.symm

/-- a unique pointer is moved from one place to an empty one -/
theorem UI.shift {g : Loc → Nat} {H : Nat → Option (Option V)} {n : Nat} (h : UI g H n) (d x : Loc) (hd : g d = 0) :
    UI (Function.update (Function.update g x 0) d (g x)) H n := by
  by_cases e : d = x
  · subst e
    have : Function.update (Function.update g d 0) d (g d) = g := by funext p; by_cases hp : p = d <;> simp [hp]
    rw [this]; exact h
  have val : ∀ p, Function.update (Function.update g x 0) d (g x) p = if p = d then g x else if p = x then 0 else g p := by
    intro p
    by_cases h1 : p = d
    · subst h1; simp
    · by_cases h2 : p = x
      · subst h2; simp [h1]
      · simp [h1, h2]
  refine ⟨?_, ?_, ?_, h.pos⟩
  · intro a b hab ha
    rw [val, val] at hab
    rw [val] at ha
    by_cases a1 : a = d <;> by_cases b1 : b = d
    · rw [a1, b1]
    · by_cases b2 : b = x
      · simp only [a1, b2, if_true, Ne.symm e, if_false] at hab ha; exact absurd hab ha
      · simp only [a1, b1, b2, if_true, if_false] at hab ha
        exact absurd (h.inj x b hab ha).symm b2
    · by_cases a2 : a = x
      · simp only [a2, Ne.symm e, if_true, if_false] at ha; exact absurd rfl ha
      · simp only [a1, a2, b1, if_true, if_false] at hab ha
        exact absurd (h.inj a x hab ha) a2
    · by_cases a2 : a = x
      · simp only [a2, Ne.symm e, if_true, if_false] at ha; exact absurd rfl ha
      · by_cases b2 : b = x
        · simp only [a1, a2, b2, Ne.symm e, if_true, if_false] at hab ha; exact absurd hab ha
        · simp only [a1, a2, b1, b2, if_false] at hab ha
          exact h.inj a b hab ha
  · intro p hp
    rw [val] at hp ⊢
    split_ifs at hp ⊢ with h1 h2
    · exact h.obj x hp
    · exact absurd rfl hp
    · exact h.obj p hp
  · intro q hq
    obtain ⟨h1, h2, p, hp⟩ := h.own q hq
    refine ⟨h1, h2, ?_⟩
    by_cases hx : p = x
    · subst hx; exact ⟨d, by rw [val]; simp [hp]⟩
    · by_cases hpd : p = d
      · subst hpd; rw [hd] at hp; exact absurd hp.symm h1
      · exact ⟨p, by rw [val]; simp [hpd, hx, hp]⟩

theorem moveU_ok (s : St V) (d x : Loc) (n : Nat) (h : UI s.u s.heap n) : ∃ H',
    moveU d x s = .ok () { s with u := Function.update (Function.update s.u x 0) d (s.u x), heap := H' } ∧
    UI (Function.update (Function.update s.u x 0) d (s.u x)) H' n ∧
    ∀ q, (∃ p, Function.update (Function.update s.u x 0) d (s.u x) p = q) → H' q = s.heap q := by
  by_cases e : d = x
  · subst e
    have : Function.update (Function.update s.u d 0) d (s.u d) = s.u := by funext p; by_cases hp : p = d <;> simp [hp]
    refine ⟨s.heap, by simp [moveU, deleteU], ?_, fun _ _ => rfl⟩
    rw [this]; exact h
  · obtain ⟨H', h1, h2, h3⟩ := deleteU_ok s d n h
    have hs := h2.shift d x (by simp)
    have hx : Function.update s.u d 0 x = s.u x := by simp [Ne.symm e]
    rw [hx] at hs
    have hu : Function.update (Function.update (Function.update s.u d 0) x 0) d (s.u x) =
        Function.update (Function.update s.u x 0) d (s.u x) := by
      funext p
      by_cases hp : p = d
      · subst hp; simp
      · by_cases hq : p = x
        · subst hq; simp [hp]
        · simp [hp, hq]
    rw [hu] at hs
    refine ⟨H', ?_, hs, ?_⟩
    · have hd : Function.update s.u x 0 d = s.u d := by simp [e]
      simp only [moveU, M.bind_apply, M.get_apply, M.set_apply, hd]
      unfold deleteU at h1 ⊢
      split_ifs at h1 ⊢ with h0
      · simp only [M.pure_apply, Res.ok.injEq, true_and] at h1 ⊢
        have : s.heap = H' := congrArg St.heap h1
        rw [this]
      · obtain ⟨v, hv⟩ := h.obj d h0
        simp [endU, freeU, hv] at h1 ⊢
        exact h1
    · rintro q ⟨p, rfl⟩
      rw [← hu]
      by_cases hp : p = d
      · subst hp
        simp only [Function.update_self]
        exact h3 _ ⟨x, hx⟩
      · by_cases hq : p = x
        · subst hq
          simp only [Function.update_of_ne hp, Function.update_self]
          exact h3 _ ⟨d, by simp⟩
        · simp only [Function.update_of_ne hp, Function.update_of_ne hq]
          exact h3 _ ⟨p, by simp [hp]⟩

theorem resetU_ok (s : St V) (x : Loc) (n : Nat) (h : UI s.u s.heap n) : ∃ H',
    resetU x s = .ok () { s with u := Function.update s.u x 0, heap := H' } ∧
    UI (Function.update s.u x 0) H' n ∧ ∀ q, (∃ p, Function.update s.u x 0 p = q) → H' q = s.heap q := by
  obtain ⟨H', h1, h2⟩ := deleteU_ok s x n h
  exact ⟨H', by simpa [resetU] using h1, h2⟩

variable (L : Lang V)

theorem construct_ok (a : Nat) (c : Cat) (f : Fault) (put : V → M (St V) Unit) (s : St V) : construct L a c f put s =
    if f = .ctor then .throw .element { s with arg := Function.update s.arg a (Spec.wreck L c (s.arg a)) }
    else put (s.arg a) { s with arg := Function.update s.arg a (Spec.rest L c (s.arg a)) } := by
  unfold construct Spec.wreck Spec.rest
  by_cases hf : f = .ctor <;> by_cases hc : c = .rvalue <;> simp [hf, hc]

theorem update_twice {A : Type} (g : Nat → Option A) (n : Nat) (h : g n = none) (o : Option A) :
    Function.update (Function.update g n o) n none = g := by
  funext p
  by_cases hp : p = n
  · subst hp; simp [h]
  · simp [hp]

theorem makeUnique_ok (a : Nat) (c : Cat) (f : Fault) (s : St V) (h : s.heap s.nextU = none) : makeUnique L a c f s =
    match f with
    | .none => .ok () { s with
        arg := Function.update s.arg a (Spec.rest L c (s.arg a)), heap := Function.update s.heap s.nextU (some (some (s.arg a))),
        nextU := s.nextU + 1, u := Function.update s.u .res s.nextU }
    | .alloc => .throw .badAlloc s
    | .ctor => .throw .element { s with
        arg := Function.update s.arg a (Spec.wreck L c (s.arg a)), nextU := s.nextU + 1 } := by
  cases f with
  | none => simp [makeUnique, allocU, onThrow, construct_ok, putU]
  | alloc => simp [makeUnique, allocU]
  | ctor => simp [makeUnique, allocU, onThrow, construct_ok, freeU, update_twice _ _ h]

theorem makeShared_ok (a : Nat) (c : Cat) (f : Fault) (s : St V) (h : s.ctls s.nextS = none) : makeShared L a c f s =
    match f with
    | .none => .ok () { s with
        arg := Function.update s.arg a (Spec.rest L c (s.arg a)), ctls := Function.update s.ctls s.nextS (some ⟨some (s.arg a), 1⟩),
        nextS := s.nextS + 1, s := Function.update s.s .res s.nextS }
    | .alloc => .throw .badAlloc s
    | .ctor => .throw .element { s with
        arg := Function.update s.arg a (Spec.wreck L c (s.arg a)), nextS := s.nextS + 1 } := by
  cases f with
  | none => simp [makeShared, allocS, onThrow, construct_ok, putS]
  | alloc => simp [makeShared, allocS]
  | ctor => simp [makeShared, allocS, onThrow, construct_ok, freeS, update_twice _ _ h]

/-- what the temporary becomes -/
theorem UI.made {g : Loc → Nat} {H : Nat → Option (Option V)} {n : Nat} (h : UI g H n) (hr : g .res = 0) (v : V) :
    UI (Function.update g .res n) (Function.update H n (some (some v))) (n + 1) := by
  have hn := h.pos
  refine ⟨?_, ?_, ?_, by omega⟩
  · intro a b hab ha
    by_cases e : a = .res <;> by_cases e' : b = .res
    · rw [e, e']
    · have := h.lt b
      simp only [e, Function.update_self, Function.update_of_ne e'] at hab; omega
    · have := h.lt a
      simp only [e', Function.update_self, Function.update_of_ne e] at hab; omega
    · simp only [Function.update_of_ne e, Function.update_of_ne e'] at hab ha
      exact h.inj a b hab ha
  · intro p hp
    by_cases e : p = .res
    · subst e; simp
    · simp only [Function.update_of_ne e] at hp ⊢
      have := h.lt p
      rw [Function.update_of_ne (by omega)]
      exact h.obj p hp
  · intro q hq
    by_cases e : q = n
    · subst e; exact ⟨hn, by omega, .res, by simp⟩
    · rw [Function.update_of_ne e] at hq
      obtain ⟨h1, h2, p, hp⟩ := h.own q hq
      refine ⟨h1, by omega, p, ?_⟩
      rw [Function.update_of_ne]
      · exact hp
      · rintro rfl; rw [hr] at hp; exact h1 hp.symm

theorem CI.made {g : Loc → Nat} {C : Nat → Option (Ctl V)} {n : Nat} (h : CI g C n) (hr : g .res = 0) (v : V) :
    CI (Function.update g .res n) (Function.update C n (some ⟨some v, 1⟩)) (n + 1) := by
  have hn := h.pos
  refine ⟨?_, ?_, by omega⟩
  · rw [cnt_update]
    have := h.cnt.add hr hn
    rw [h.fresh] at this
    exact this
  · intro q c hq
    by_cases e : q = n
    · subst e
      simp only [Function.update_self, Option.some.injEq] at hq
      subst hq
      exact ⟨hn, by omega, by simp, rfl⟩
    · rw [Function.update_of_ne e] at hq
      have := h.obj q c hq
      exact ⟨this.1, by omega, this.2.2⟩

/-- the temporary is assigned to a variable -/
theorem takeS_ok (s : St V) (d n : Nat) (h : CI s.s s.ctls n) : ∃ C',
    takeS (.var d) s = .ok () { s with s := Function.update (Function.update s.s (.var d) (s.s .res)) .res 0, ctls := C' } ∧
    CI (Function.update (Function.update s.s (.var d) (s.s .res)) .res 0) C' n ∧
    ∀ q, (∃ p, Function.update (Function.update s.s (.var d) (s.s .res)) .res 0 p = q) → objS C' q = objS s.ctls q := by
  have hsw := h.same .res (.var d)
  obtain ⟨C', h1, h2, h3⟩ := decS_ok
    { s with s := Function.update (Function.update s.s .res (s.s (.var d))) (.var d) (s.s .res) } .res n hsw
  have hu : Function.update (Function.update (Function.update s.s .res (s.s (.var d))) (.var d) (s.s .res)) .res 0 =
      Function.update (Function.update s.s (.var d) (s.s .res)) .res 0 := by
    funext p
    by_cases hp : p = .res
    · subst hp; simp
    · by_cases hq : p = .var d
      · subst hq; simp
      · simp [hp, hq]
  simp only [hu] at h1 h2 h3
  refine ⟨C', ?_, h2, h3⟩
  simp only [takeS, M.bind_apply, M.modify_apply, M.get_apply, M.set_apply, hu]
  exact h1

open Spec in
/-- one call -/
theorem step_ok (y : Sys V) (s : St V) (h : Rel y s) (op : Op V) : ∃ s', call L op s = .ok (step L y op).1 s' ∧ Rel (step L y op).2 s' := by
  cases op with
  | set a v =>
    refine ⟨_, rfl, ?_⟩
    exact ⟨by simp [step, h.arg], h.up, h.sp, h.same, h.ui, h.ci, h.resU, h.resS⟩
  | get a => exact ⟨s, by simp [call, exec, step, h.arg], h⟩
  | makeU d a c f =>
    have hm := makeUnique_ok L a c f s h.ui.fresh
    cases f with
    | alloc => exact ⟨s, by simp [call, exec, hm, step, make], h⟩
    | ctor =>
      refine ⟨_, by simp only [call, exec, M.bind_apply, hm]; rfl, ?_⟩
      exact ⟨by simp [step, make, h.arg], h.up, h.sp, h.same, h.ui.mono, h.ci, h.resU, h.resS⟩
    | none =>
      have hmade := h.ui.made h.resU (s.arg a)
      obtain ⟨H', h1, h2, h3⟩ := moveU_ok (V := V) { s with
        arg := Function.update s.arg a (Spec.rest L c (s.arg a)), heap := Function.update s.heap s.nextU (some (some (s.arg a))),
        nextU := s.nextU + 1, u := Function.update s.u .res s.nextU } (.var d) .res (s.nextU + 1) hmade
      have hu : Function.update (Function.update (Function.update s.u .res s.nextU) .res 0) (.var d) s.nextU =
          Function.update s.u (.var d) s.nextU := by
        funext p
        by_cases hp : p = .var d
        · subst hp; simp
        · by_cases hq : p = .res
          · subst hq; simp [h.resU]
          · simp [hp, hq]
      simp only [Function.update_self, hu] at h1 h2 h3
      refine ⟨_, by simp only [call, exec, M.bind_apply, hm, h1, M.pure_apply]; rfl, ?_⟩
      refine ⟨by simp [step, make, h.arg], ?_, h.sp, h.same, h2, h.ci, by simp [h.resU], h.resS⟩
      intro x
      show Function.update y.up d (some (y.arg a)) x = (H' (Function.update s.u (.var d) s.nextU (.var x))).bind id
      rw [h3 _ ⟨_, rfl⟩]
      by_cases hx : x = d
      · subst hx; simp [h.arg]
      · have := h.ui.lt (.var x)
        have hne : s.u (.var x) ≠ s.nextU := by omega
        simp [hx, h.up x, hne]
  | makeS d a c f =>
    have hm := makeShared_ok L a c f s h.ci.fresh
    cases f with
    | alloc => exact ⟨s, by simp [call, exec, hm, step, make], h⟩
    | ctor =>
      refine ⟨_, by simp only [call, exec, M.bind_apply, hm]; rfl, ?_⟩
      exact ⟨by simp [step, make, h.arg], h.up, h.sp, h.same, h.ui, h.ci.mono, h.resU, h.resS⟩
    | none =>
      have hmade := h.ci.made h.resS (s.arg a)
      obtain ⟨C', h1, h2, h3⟩ := takeS_ok (V := V) { s with
        arg := Function.update s.arg a (Spec.rest L c (s.arg a)), ctls := Function.update s.ctls s.nextS (some ⟨some (s.arg a), 1⟩),
        nextS := s.nextS + 1, s := Function.update s.s .res s.nextS } d (s.nextS + 1) hmade
      have hu : Function.update (Function.update (Function.update s.s .res s.nextS) (.var d) s.nextS) .res 0 =
          Function.update s.s (.var d) s.nextS := by
        funext p
        by_cases hq : p = .res
        · subst hq; simp [h.resS]
        · by_cases hp : p = .var d
          · subst hp; simp
          · simp [hp, hq]
      simp only [Function.update_self, hu] at h1 h2 h3
      refine ⟨_, by simp only [call, exec, M.bind_apply, hm, h1, M.pure_apply]; rfl, ?_⟩
      have hne : ∀ x, s.s (.var x) ≠ s.nextS := fun x => by have := h.ci.lt (.var x); omega
      refine ⟨by simp [step, make, Sys.fresh, h.arg], h.up, ?_, ?_, h.ui, h2, h.resU, by simp [h.resS]⟩
      · intro x
        show Function.update y.sp d (some (y.arg a)) x = objS C' (Function.update s.s (.var d) s.nextS (.var x))
        rw [h3 _ ⟨_, rfl⟩]
        by_cases hx : x = d
        · subst hx; simp [objS, h.arg]
        · simp [hx, h.sp x, objS, hne x]
      · intro x z
        show ((x = d ∧ z = d) ∨ (x ≠ d ∧ z ≠ d ∧ y.same x z)) ↔
          Function.update s.s (.var d) s.nextS (.var x) = Function.update s.s (.var d) s.nextS (.var z) ∧
            Function.update s.s (.var d) s.nextS (.var x) ≠ 0
        have hn := h.ci.pos
        by_cases hx : x = d
        · by_cases hz : z = d
          · simp [hx, hz, hn]
          · simp [hx, hz, Ne.symm (hne z)]
        · by_cases hz : z = d
          · simp [hx, hz, hne x]
          · simp [hx, hz, h.same x z]
  | moveU d x =>
    obtain ⟨H', h1, h2, h3⟩ := moveU_ok s (.var d) (.var x) _ h.ui
    refine ⟨_, by simp only [call, exec, M.bind_apply, h1, M.pure_apply]; rfl, ?_⟩
    refine ⟨h.arg, ?_, h.sp, h.same, h2, h.ci, by simp [h.resU], h.resS⟩
    intro z
    show (if z = d then y.up x else if z = x then none else y.up z) = (H' _).bind id
    rw [h3 _ ⟨_, rfl⟩]
    by_cases hz : z = d
    · subst hz; simp [h.up x]
    · by_cases hx : z = x
      · subst hx; simp [hz, h.ui.zero]
      · simp [hz, hx, h.up z]
  | resetU x =>
    obtain ⟨H', h1, h2, h3⟩ := resetU_ok s (.var x) _ h.ui
    refine ⟨_, by simp only [call, exec, M.bind_apply, h1, M.pure_apply]; rfl, ?_⟩
    refine ⟨h.arg, ?_, h.sp, h.same, h2, h.ci, by simp [h.resU], h.resS⟩
    intro z
    show Function.update y.up x none z = (H' _).bind id
    rw [h3 _ ⟨_, rfl⟩]
    by_cases hz : z = x
    · subst hz; simp [h.ui.zero]
    · simp [hz, h.up z]
  | readU x =>
    refine ⟨s, ?_, h⟩
    by_cases h0 : s.u (.var x) = 0
    · simp [call, exec, h0, step, h.up x, h.ui.zero]
    · obtain ⟨v, hv⟩ := h.ui.obj _ h0
      simp [call, exec, h0, step, h.up x, hv, loadU, M.load]
  | writeU x v =>
    by_cases h0 : s.u (.var x) = 0
    · refine ⟨s, by simp [call, exec, h0, step], ?_⟩
      have hn : y.up x = none := by rw [h.up x, h0, h.ui.zero]; rfl
      refine ⟨h.arg, ?_, h.sp, h.same, h.ui, h.ci, h.resU, h.resS⟩
      intro z
      show Function.update y.up x ((y.up x).map fun _ => v) z = _
      by_cases hz : z = x
      · subst hz; rw [← h.up z]; simp [hn]
      · simp [hz, h.up z]
    · obtain ⟨w, hw⟩ := h.ui.obj _ h0
      refine ⟨{ s with heap := Function.update s.heap (s.u (.var x)) (some (some v)) }, by simp [call, exec, h0, storeU, hw, step], ?_⟩
      refine ⟨h.arg, ?_, h.sp, h.same, ⟨h.ui.inj, ?_, ?_, h.ui.pos⟩, h.ci, h.resU, h.resS⟩
      · intro z
        show Function.update y.up x ((y.up x).map fun _ => v) z =
          (Function.update s.heap (s.u (.var x)) (some (some v)) (s.u (.var z))).bind id
        by_cases hz : z = x
        · subst hz; simp [h.up z, hw]
        · have : s.u (.var z) ≠ s.u (.var x) := fun e => hz (by simpa using (h.ui.inj _ _ e.symm h0).symm)
          simp [hz, h.up z, this]
      · intro l hl
        by_cases e : s.u l = s.u (.var x)
        · exact ⟨v, by simp [e]⟩
        · obtain ⟨v', hv'⟩ := h.ui.obj l hl
          exact ⟨v', by simp [e, hv']⟩
      · intro q hq
        by_cases e : q = s.u (.var x)
        · subst e; exact ⟨h0, h.ui.lt _, _, rfl⟩
        · simp only [Function.update_of_ne e] at hq
          exact h.ui.own q hq
  | copyS d x =>
    obtain ⟨C1, i1, i2, i3⟩ := incS_ok s (.var x) .res _ h.ci h.resS
    obtain ⟨C', h1, h2, h3⟩ := takeS_ok (V := V) { s with ctls := C1, s := Function.update s.s .res (s.s (.var x)) } d _ i2
    refine ⟨_, by
      simp only [takeS, M.bind_apply, M.modify_apply, M.get_apply, M.set_apply] at h1
      simp only [call, exec, copyS, M.bind_apply, M.get_apply, i1, M.modify_apply, M.set_apply, h1, M.pure_apply]
      rfl, ?_⟩
    refine h.rebind _ _ C' ?_ (by simp) h2 ?_
    · intro z
      by_cases hz : z = d
      · subst hz; simp
      · simp [hz]
    · intro q hq
      rw [h3 q hq]; exact i3 q
  | moveS d x =>
    obtain ⟨C', h1, h2, h3⟩ := takeS_ok (V := V)
      { s with s := Function.update (Function.update s.s .res (s.s (.var x))) (.var x) 0 } d _ (h.ci.take (.var x) h.resS)
    refine ⟨_, by simp only [call, exec, moveS, M.bind_apply, M.modify_apply, h1, M.pure_apply]; rfl, ?_⟩
    refine h.rebind _ _ C' ?_ (by simp) h2 h3
    intro z
    by_cases hz : z = d
    · subst hz; simp
    · by_cases hx : z = x
      · subst hx; simp [hz]
      · simp [hz, hx]
  | resetS x =>
    obtain ⟨C', h1, h2, h3⟩ := decS_ok s (.var x) _ h.ci
    refine ⟨_, by simp only [call, exec, resetS, M.bind_apply, M.get_apply, M.set_apply, h1, M.pure_apply]; rfl, ?_⟩
    refine h.rebind _ _ C' ?_ (by simp [h.resS]) h2 h3
    intro z
    by_cases hz : z = x
    · subst hz; simp
    · simp [hz]
  | readS x =>
    refine ⟨s, ?_, h⟩
    by_cases h0 : s.s (.var x) = 0
    · simp [call, exec, h0, step, h.sp x, objS, h.ci.zero]
    · obtain ⟨v, k, hv⟩ := h.ci.owned h0
      simp [call, exec, h0, step, h.sp x, objS, hv, loadS, M.load]
  | writeS x v =>
    by_cases h0 : s.s (.var x) = 0
    · refine ⟨s, by simp [call, exec, h0, step], ?_⟩
      have hn : ∀ z, ¬ y.same x z := fun z e => ((h.same x z).1 e).2 h0
      have : (step L y (.writeS x v)).2 = y := by simp [step, hn]
      rw [this]; exact h
    · obtain ⟨w, k, hw⟩ := h.ci.owned h0
      refine ⟨{ s with ctls := Function.update s.ctls (s.s (.var x)) (some ⟨some v, k + 1⟩) },
        by simp [call, exec, h0, storeS, hw, step], ?_⟩
      refine ⟨h.arg, h.up, ?_, h.same, h.ui, ⟨?_, ?_, h.ci.pos⟩, h.resU, h.resS⟩
      · intro z
        simp only [step]
        by_cases hs : y.same x z
        · have := ((h.same x z).1 hs).1
          simp [hs, objS, ← this]
        · have : s.s (.var z) ≠ s.s (.var x) := fun e => hs ((h.same x z).2 ⟨e.symm, h0⟩)
          simp [hs, objS, this, h.sp z]
      · rw [cnt_update]
        have : Function.update (fun p => cntOf (s.ctls p)) (s.s (.var x)) (cntOf (some (⟨some v, k + 1⟩ : Ctl V))) =
            fun p => cntOf (s.ctls p) := by
          funext p
          by_cases hp : p = s.s (.var x)
          · subst hp; simp [hw, cntOf]
          · simp [hp]
        rw [this]; exact h.ci.cnt
      · intro q c hq
        by_cases e : q = s.s (.var x)
        · subst e
          simp only [Function.update_self, Option.some.injEq] at hq
          subst hq
          have := h.ci.obj _ _ hw
          exact ⟨this.1, this.2.1, by simp, rfl⟩
        · simp only [Function.update_of_ne e] at hq; exact h.ci.obj q c hq

theorem run_ok (ops : List (Op V)) : ∀ (y : Spec.Sys V) (s : St V), Rel y s →
    ∃ s', run L ops s = .ok (Spec.run L ops y).1 s' ∧ Rel (Spec.run L ops y).2 s' := by
  induction ops with
  | nil => exact fun y s h => ⟨s, rfl, h⟩
  | cons op ops ih =>
    intro y s h
    obtain ⟨s1, h1, r1⟩ := step_ok L y s h op
    obtain ⟨s2, h2, r2⟩ := ih _ s1 r1
    exact ⟨s2, by simp only [run, M.bind_apply, h1, h2, M.pure_apply, Spec.run], r2⟩

theorem start_ok (arg : Nat → V) : Rel (Spec.start arg) (start arg) := by
  refine ⟨rfl, fun _ => rfl, fun _ => rfl, fun a b => by simp [Spec.start, start], ⟨?_, ?_, ?_, ?_⟩, ⟨?_, ?_, ?_⟩, rfl, rfl⟩
  · intro l l' _ h; exact absurd rfl h
  · intro l h; exact absurd rfl h
  · intro q h; exact absurd rfl h
  · simp [start]
  · intro q hq
    exact ⟨[], List.nodup_nil, fun p => by simp only [List.not_mem_nil, false_iff, start]; exact Ne.symm hq, rfl⟩
  · intro q c h; exact absurd h (by simp [start])
  · simp [start]

/-- **C78**: every history of `make_shared` and `make_unique`, of lvalues and rvalues, with memory that runs out and constructors that
throw at any call, and of moves, copies, resets, reads and writes: no undefined behaviour, and the results are those of pointers that are
values. -/
theorem C78_refines (ops : List (Op V)) (arg : Nat → V) :
    ∃ s, run L ops (start arg) = .ok (Spec.run L ops (Spec.start arg)).1 s := by
  obtain ⟨s, h, _⟩ := run_ok L ops _ _ (start_ok arg)
  exact ⟨s, h⟩

/-- **C78**: at the end of every history the blocks in memory are exactly those that a variable points to, whatever failed before; each
has an object, that of a unique pointer has one variable, and that of shared pointers counts its variables. -/
theorem C78_no_leak (ops : List (Op V)) (arg : Nat → V) (r : List (Reply V)) (s : St V) (h : run L ops (start arg) = .ok r s) :
    (∀ q, s.heap q ≠ none ↔ q ≠ 0 ∧ ∃ x, s.u (.var x) = q) ∧ (∀ x z, s.u (.var x) = s.u (.var z) → s.u (.var x) ≠ 0 → x = z) ∧
    (∀ q, s.heap q ≠ some none) ∧
    (∀ q, s.ctls q ≠ none ↔ q ≠ 0 ∧ ∃ x, s.s (.var x) = q) ∧
    (∀ q c, s.ctls q = some c → c.obj.isSome = true ∧
      ∃ l : List Nat, l.Nodup ∧ (∀ x, x ∈ l ↔ s.s (.var x) = q) ∧ c.use = l.length) := by
  obtain ⟨s', h', hr⟩ := run_ok L ops _ _ (start_ok arg)
  rw [h] at h'
  simp only [Res.ok.injEq] at h'
  obtain ⟨_, rfl⟩ := h'
  refine ⟨?_, ?_, ?_, ?_, ?_⟩
  · intro q
    constructor
    · intro hq
      obtain ⟨h1, _, l, hl⟩ := hr.ui.own q hq
      refine ⟨h1, ?_⟩
      cases l with
      | var x => exact ⟨x, hl⟩
      | res => rw [hr.resU] at hl; exact absurd hl.symm h1
    · rintro ⟨h0, x, rfl⟩
      obtain ⟨v, hv⟩ := hr.ui.obj _ h0
      simp [hv]
  · intro x z e h0
    simpa using hr.ui.inj _ _ e h0
  · intro q hq
    obtain ⟨h1, _, l, hl⟩ := hr.ui.own q (by simp [hq])
    obtain ⟨v, hv⟩ := hr.ui.obj l (by rw [hl]; exact h1)
    rw [hl, hq] at hv
    simp at hv
  · intro q
    constructor
    · intro hq
      cases hc : s.ctls q with
      | none => exact absurd hc hq
      | some c =>
        obtain ⟨h1, _, h3, _⟩ := hr.ci.obj q c hc
        obtain ⟨l, hl⟩ := (hr.ci.cnt.pos_iff h1).1 (by simpa [hc, cntOf] using h3)
        refine ⟨h1, ?_⟩
        cases l with
        | var x => exact ⟨x, hl⟩
        | res => rw [hr.resS] at hl; exact absurd hl.symm h1
    · rintro ⟨h0, x, rfl⟩
      obtain ⟨v, k, hv⟩ := hr.ci.owned h0
      simp [hv]
  · intro q c hc
    obtain ⟨h1, _, _, h4⟩ := hr.ci.obj q c hc
    refine ⟨h4, ?_⟩
    obtain ⟨l, l1, l2, l3⟩ := hr.ci.cnt q h1
    refine ⟨l.filterMap (fun | .var x => some x | .res => none), ?_, ?_, ?_⟩
    · refine l1.filterMap ?_
      intro a b c ha hb
      cases a <;> cases b <;> simp_all
    · intro x
      rw [List.mem_filterMap]
      constructor
      · rintro ⟨a, ha, e⟩
        cases a with
        | var z => simp only [Option.some.injEq] at e; subst e; exact (l2 _).1 ha
        | res => simp at e
      · intro hx; exact ⟨.var x, (l2 _).2 hx, rfl⟩
    · have hc' : cntOf (s.ctls q) = c.use := by rw [hc]; rfl
      have l3' : cntOf (s.ctls q) = l.length := l3
      rw [← hc', l3']
      have hnr : ∀ a ∈ l, ∃ x, a = .var x := by
        intro a ha
        cases a with
        | var x => exact ⟨x, rfl⟩
        | res => have := (l2 _).1 ha; rw [hr.resS] at this; exact absurd this.symm h1
      clear l1 l2 l3 l3'
      induction l with
      | nil => rfl
      | cons a l ih =>
        obtain ⟨x, rfl⟩ := hnr a (by simp)
        simp only [List.length_cons, List.filterMap_cons]
        rw [ih (fun a ha => hnr a (by simp [ha]))]

open Spec in
/-- **C78**: a call that fails. No pointer changes, no memory stays allocated and none is freed, and the argument is what the constructor
left of it: untouched if it was to be copied, or if there was no memory. -/
theorem C78_failed (ops : List (Op V)) (arg : Nat → V) (r : List (Reply V)) (s : St V) (h : run L ops (start arg) = .ok r s) (op : Op V)
    (d a : Nat) (c : Cat) (f : Fault) (hop : op = .makeU d a c f ∨ op = .makeS d a c f) (hf : f ≠ .none) :
    ∃ s', call L op s = .ok (if f = .alloc then .noMemory else .thrown) s' ∧ s'.u = s.u ∧ s'.s = s.s ∧ s'.heap = s.heap ∧
      s'.ctls = s.ctls ∧ (∀ b, b ≠ a → s'.arg b = s.arg b) ∧
      s'.arg a = if f = .ctor ∧ c = .rvalue then L.broken (s.arg a) else s.arg a := by
  obtain ⟨s0, h0, hr⟩ := run_ok L ops _ _ (start_ok arg)
  rw [h] at h0
  simp only [Res.ok.injEq] at h0
  obtain ⟨_, rfl⟩ := h0
  have hu := makeUnique_ok L a c f s hr.ui.fresh
  have hs := makeShared_ok L a c f s hr.ci.fresh
  cases f with
  | none => exact absurd rfl hf
  | alloc =>
    refine ⟨s, ?_, rfl, rfl, rfl, rfl, fun _ _ => rfl, by simp⟩
    rcases hop with rfl | rfl
    · simp [call, exec, hu]
    · simp [call, exec, hs]
  | ctor =>
    rcases hop with rfl | rfl
    · refine ⟨{ s with arg := Function.update s.arg a (wreck L c (s.arg a)), nextU := s.nextU + 1 },
        by simp [call, exec, hu], rfl, rfl, rfl, rfl, fun b hb => by simp [hb], ?_⟩
      simp [wreck]
    · refine ⟨{ s with arg := Function.update s.arg a (wreck L c (s.arg a)), nextS := s.nextS + 1 },
        by simp [call, exec, hs], rfl, rfl, rfl, rfl, fun b hb => by simp [hb], ?_⟩
      simp [wreck]

/-! ## Examples -/

/-- strings: moved from is empty, a broken move leaves "?" -/
def strings : Lang String := ⟨fun _ => "", fun _ => "?"⟩

def sampleOps : List (Op String) :=
  [.set 0 "a", .makeU 1 0 .lvalue .none, .makeU 1 0 .rvalue .ctor, .get 0, .set 0 "b", .makeS 5 0 .rvalue .none, .get 0,
   .copyS 6 5, .writeS 6 "c", .readS 5, .makeS 5 0 .lvalue .alloc, .moveU 2 1, .readU 1, .readU 2]

def replies : Res (St String) (List (Reply String)) → List (Option (Option String))
  | .ok rs _ => rs.map fun | .value v => some v | .done => none | .noMemory => some (some "no memory") | .thrown => some (some "thrown")
  | _ => []

example : replies (run strings sampleOps (start fun _ => "")) =
    [none, none, some (some "thrown"), some (some "?"), none, none, some (some ""), none, none, some (some "c"),
     some (some "no memory"), none, some none, some (some "a")] := by decide +kernel

example : ∃ s, run strings sampleOps (start fun _ => "") = .ok (Spec.run strings sampleOps (Spec.start fun _ => "")).1 s :=
  C78_refines strings sampleOps _

example : ∃ r s, run strings sampleOps (start fun _ => "") = .ok r s ∧ s.ctls 1 ≠ none ∧ s.heap 1 ≠ none ∧ s.heap 2 = none := by
  obtain ⟨s, h⟩ := C78_refines strings sampleOps (fun _ => "")
  refine ⟨_, s, h, ?_⟩
  have e : ∀ r, run strings sampleOps (start fun _ => "") = r → (match r with
      | .ok _ s => (s.ctls 1).isSome && (s.heap 1).isSome && (s.heap 2).isNone
      | _ => false) = true := by
    intro r hr; subst hr; decide +kernel
  have := e _ h
  simp only [Bool.and_eq_true, Option.isSome_iff_ne_none, Option.isNone_iff_eq_none] at this
  exact ⟨this.1.1, this.1.2, this.2⟩

example : ∃ s', call strings (.makeU 2 0 .rvalue .ctor) (start fun _ => "x") = .ok .thrown s' ∧ s'.arg 0 = "?" := by
  obtain ⟨s', h, _, _, _, _, _, h'⟩ := C78_failed strings [] (fun _ => "x") [] (start fun _ => "x") rfl
    (.makeU 2 0 .rvalue .ctor) 2 0 .rvalue .ctor (.inl rfl) (by simp)
  exact ⟨s', h, h'⟩

end Itlib.MakePtr
