import Verif.Counter.Lemmas

namespace Itlib.Counter
open Itlib.Conc

variable {T : IntTy} {init : Nat → Int} {tr : List (Ev Op (Option Int))} {c : Config Act Act.Res Mem Op (Option Int)}

/-- In every execution the calls take effect one at a time, each at some instant between call and return, and no update is
lost. Loads return some value the counter has or had (`C38_monotone` says more). -/
theorem C38_linearizable (h : Exec (sys T) (body T) (initial init) tr c) : Linearizable (Spec.call T) (Spec.start init) tr := by
  obtain ⟨L, ph, z, hw, he, hl, -⟩ := (sim T).exec (J_initial T init) h
  exact ⟨L, ph, z, hw, he, hl⟩

theorem mem_invs_of_mem_lins {L : List (LEv Op (Option Int))} {ph : Nat → Phase Op (Option Int)} (hw : Wf L ph) {e : Nat × Op × Option Int}
    (he : e ∈ lins L) : (e.1, e.2.1) ∈ invs (erase L) := by
  obtain ⟨pend, hp, -⟩ := hw.invs_perm
  rw [hp.mem_iff]
  simp only [List.mem_append, List.mem_map]
  exact Or.inl ⟨e, he, rfl⟩

/-- When all calls returned, the counter's value is the initial value plus all deltas, if nobody overwrote it. -/
theorem C38_no_lost_update (h : Exec (sys T) (body T) (initial init) tr c) (hi : c.Idle) (x : Nat) (hr : T.InRange (init x))
    (hs : ∀ e ∈ invs tr, ¬ Spec.Sets x e.2) :
    c.shared.last x = T.wrap (init x + ((invs tr).map fun e => Spec.delta x e.2).sum) := by
  obtain ⟨L, ph, z, hw, rfl, hl, hj⟩ := (sim T).exec (J_initial T init) h
  have h1 := Legal.val_eq hl x hr fun e he => hs _ (mem_invs_of_mem_lins hw he)
  rw [hj.val] at h1
  rw [h1]
  obtain ⟨pend, hp, hpend, -⟩ := hw.invs_perm
  have : pend = [] := by
    rw [List.eq_nil_iff_forall_not_mem]
    intro e he
    have := (hpend e.1 e.2).mp he
    rw [hj.idle _ (hi _)] at this
    cases this
  subst this
  rw [(hp.map _).sum_eq]
  simp [Spec.start, Function.comp_def]

/-- tickets of a sequential history -/
theorem Legal.tickets {z z' : Spec.Regs} {l : List (Nat × Op × Option Int)} (h : Legal (Spec.call T) z l z') (x : Nat)
    (hr : T.InRange (z.val x)) (hs : ∀ e ∈ l, Spec.OnlyIncs x e.2.1) :
    l.filterMap (Spec.ticket T x) = (List.range (l.countP fun e => Spec.Incs x e.2.1)).map (fun k : Nat => T.wrap (z.val x + (k + 1))) ∧
      (l.map fun e => Spec.delta x e.2.1).sum = (l.countP fun e => Spec.Incs x e.2.1) := by
  induction h with
  | nil => simp
  | @snoc l z1 z2 e h hc ih =>
    obtain ⟨ih1, ih2⟩ := ih fun e he => hs e (by simp [he])
    have hse := hs e (by simp)
    have hv := Legal.val_eq h x hr fun e he => by
      rcases hs e (by simp [he]) with h | h
      · generalize e.2.1 = o at h
        cases o <;> simp [Spec.Incs, Spec.Sets] at h ⊢
      · exact h.2.1
    obtain ⟨t, o, y⟩ := e
    rw [ih2] at hv
    have inc : Spec.ticket T x (t, o, y) = some (T.wrap (z1.val x + 1)) → Spec.Incs x o = true → Spec.delta x o = 1 →
        (l ++ [(t, o, y)]).filterMap (Spec.ticket T x) =
          (List.range ((l ++ [(t, o, y)]).countP fun e => Spec.Incs x e.2.1)).map (fun k : Nat => T.wrap (z.val x + (k + 1))) ∧
        ((l ++ [(t, o, y)]).map fun e => Spec.delta x e.2.1).sum = ((l ++ [(t, o, y)]).countP fun e => Spec.Incs x e.2.1) := by
      intro h1 h2 h3
      refine ⟨?_, ?_⟩
      · simp only [List.filterMap_append, List.filterMap_cons, h1, List.filterMap_nil, List.countP_append, List.countP_cons, h2, if_true,
          List.countP_nil, Nat.zero_add, List.range_succ, List.map_append, List.map_cons, List.map_nil, ih1]
        rw [hv, wrap_add, Int.add_assoc]
      · simp only [List.map_append, List.map_cons, List.map_nil, List.sum_append, List.sum_cons, List.sum_nil, h3, List.countP_append,
          List.countP_cons, h2, if_true, List.countP_nil, ih2]
        omega
    have none : Spec.ticket T x (t, o, y) = none → Spec.Incs x o = false → Spec.delta x o = 0 →
        (l ++ [(t, o, y)]).filterMap (Spec.ticket T x) =
          (List.range ((l ++ [(t, o, y)]).countP fun e => Spec.Incs x e.2.1)).map (fun k : Nat => T.wrap (z.val x + (k + 1))) ∧
        ((l ++ [(t, o, y)]).map fun e => Spec.delta x e.2.1).sum = ((l ++ [(t, o, y)]).countP fun e => Spec.Incs x e.2.1) := by
      intro h1 h2 h3
      refine ⟨?_, ?_⟩
      · simp only [List.filterMap_append, List.filterMap_cons, h1, List.filterMap_nil, List.countP_append, List.countP_cons, h2,
          Bool.false_eq_true, if_false, List.countP_nil, List.append_nil, ih1, Nat.add_zero]
      · simp only [List.map_append, List.map_cons, List.map_nil, List.sum_append, List.sum_cons, List.sum_nil, h3, List.countP_append,
          List.countP_cons, h2, Bool.false_eq_true, if_false, List.countP_nil, ih2]
        omega
    have hd : Spec.OnlyIncs x o → Spec.Incs x o = false → Spec.delta x o = 0 := by
      intro h1 h2
      rcases h1 with h1 | h1
      · rw [h1] at h2; cases h2
      · exact h1.1
    cases o with
    | preInc x' =>
      obtain ⟨rfl, rfl⟩ := hc
      by_cases hx : x' = x
      · subst hx; exact inc (by simp [Spec.ticket]) (by simp [Spec.Incs]) (by simp [Spec.delta])
      · exact none (by simp [Spec.ticket, hx]) (by simp [Spec.Incs, hx]) (by simp [Spec.delta, hx])
    | postInc x' =>
      obtain ⟨rfl, rfl⟩ := hc
      by_cases hx : x' = x
      · subst hx; exact inc (by simp [Spec.ticket]) (by simp [Spec.Incs]) (by simp [Spec.delta])
      · exact none (by simp [Spec.ticket, hx]) (by simp [Spec.Incs, hx]) (by simp [Spec.delta, hx])
    | _ => exact none rfl rfl (hd hse rfl)

/-- If the counter is only incremented (`++x`, `x++`) and read, then once all calls returned, the increments moved it to
`init + 1`, `init + 2`, ..., each exactly once. -/
theorem C38_tickets (h : Exec (sys T) (body T) (initial init) tr c) (hi : c.Idle) (x : Nat) (hr : T.InRange (init x))
    (hs : ∀ e ∈ invs tr, Spec.OnlyIncs x e.2) :
    ((rets tr).filterMap (Spec.ticket T x)).Perm
      ((List.range ((invs tr).countP fun e => Spec.Incs x e.2)).map fun k : Nat => T.wrap (init x + (k + 1))) := by
  obtain ⟨L, ph, z, hw, rfl, hl, hj⟩ := (sim T).exec (J_initial T init) h
  have h1 := (Legal.tickets hl x hr fun e he => hs _ (mem_invs_of_mem_lins hw he)).1
  obtain ⟨pend, hp, hpend, -⟩ := hw.invs_perm
  obtain ⟨dn, hd, hdn, -⟩ := hw.rets_perm
  have e1 : pend = [] := by
    rw [List.eq_nil_iff_forall_not_mem]
    intro e he
    have := (hpend e.1 e.2).mp he
    rw [hj.idle _ (hi _)] at this
    cases this
  have e2 : dn = [] := by
    rw [List.eq_nil_iff_forall_not_mem]
    intro e he
    have := (hdn e.1 e.2.1 e.2.2).mp he
    rw [hj.idle _ (hi _)] at this
    cases this
  subst e1 e2
  simp only [List.append_nil] at hp hd
  refine ((hd.filterMap _).symm.trans ?_)
  rw [h1, hp.countP_eq, List.countP_map]
  exact .refl _

/-- At any time, increments that returned had different effects, as long as there are at most as many as values of the type. -/
theorem C38_distinct (h : Exec (sys T) (body T) (initial init) tr c) (x : Nat) (hr : T.InRange (init x))
    (hs : ∀ e ∈ invs tr, Spec.OnlyIncs x e.2) (hn : ((invs tr).countP fun e => Spec.Incs x e.2 : Nat) ≤ T.size) :
    ((rets tr).filterMap (Spec.ticket T x)).Nodup := by
  obtain ⟨L, ph, z, hw, rfl, hl, hj⟩ := (sim T).exec (J_initial T init) h
  have h1 := (Legal.tickets hl x hr fun e he => hs _ (mem_invs_of_mem_lins hw he)).1
  obtain ⟨pend, hp, -⟩ := hw.invs_perm
  obtain ⟨dn, hd, -⟩ := hw.rets_perm
  have h2 : ((lins L).filterMap (Spec.ticket T x)).Nodup := by
    rw [h1]
    rw [hp.countP_eq, List.countP_append, List.countP_map] at hn
    refine (List.nodup_range).map_on ?_
    intro a ha b hb e
    simp only [List.mem_range] at ha hb
    simp only [Function.comp_def] at hn
    rcases Nat.le_total b a with hab | hab
    · have := wrap_eq_iff e (by omega) (by omega); omega
    · have := wrap_eq_iff e.symm (by omega) (by omega); omega
  rw [(hd.filterMap _).nodup_iff, List.filterMap_append] at h2
  exact (List.nodup_append.mp h2).1

/-- the results of `++x` are pairwise different -/
theorem C38_pre_distinct (h : Exec (sys T) (body T) (initial init) tr c) (x : Nat) (hr : T.InRange (init x))
    (hs : ∀ e ∈ invs tr, Spec.OnlyIncs x e.2) (hn : ((invs tr).countP fun e => Spec.Incs x e.2 : Nat) ≤ T.size) :
    ((rets tr).filterMap (Spec.preResult x)).Nodup := by
  have h1 := C38_distinct h x hr hs hn
  refine List.Nodup.sublist ?_ h1
  generalize rets tr = l
  induction l with
  | nil => simp
  | cons e l ih =>
    obtain ⟨t, o, y⟩ := e
    rcases hp : Spec.preResult x (t, o, y) with _ | v
    · rw [List.filterMap_cons_none hp]
      refine ih.trans ?_
      simp only [List.filterMap_cons]
      split <;> simp
    · have : Spec.ticket T x (t, o, y) = some v := by cases o <;> first | exact hp | cases hp
      rw [List.filterMap_cons_some hp, List.filterMap_cons_some this]
      exact ih.cons_cons _

/-- the results of `x++` are pairwise different -/
theorem C38_post_distinct (h : Exec (sys T) (body T) (initial init) tr c) (x : Nat) (hr : T.InRange (init x))
    (hs : ∀ e ∈ invs tr, Spec.OnlyIncs x e.2) (hn : ((invs tr).countP fun e => Spec.Incs x e.2 : Nat) ≤ T.size) :
    ((rets tr).filterMap (Spec.postResult x)).Nodup := by
  have h1 := C38_distinct h x hr hs hn
  have h2 : (((rets tr).filterMap (Spec.postResult x)).map fun v => T.wrap (v + 1)).Nodup := by
    refine List.Nodup.sublist ?_ h1
    generalize rets tr = l
    induction l with
    | nil => simp
    | cons e l ih =>
      obtain ⟨t, o, y⟩ := e
      rcases hp : Spec.postResult x (t, o, y) with _ | v
      · rw [List.filterMap_cons_none hp]
        refine ih.trans ?_
        simp only [List.filterMap_cons]
        split <;> simp
      · have : Spec.ticket T x (t, o, y) = some (T.wrap (v + 1)) := by
          cases o with
          | postInc x' =>
            simp only [Spec.postResult] at hp
            simp only [Spec.ticket]
            split at hp
            · rw [hp]; simp [*]
            · cases hp
          | _ => cases hp
        rw [List.filterMap_cons_some hp, List.filterMap_cons_some this, List.map_cons]
        exact ih.cons_cons _
  exact List.Nodup.of_map _ h2

/-- Nothing undefined happens for types whose arithmetic cannot overflow. -/
theorem C38_no_ub (h : Exec (sys T) (body T) (initial init) tr c) (hT : T.strict = false) : ¬ c.Bad (sys T) := by
  have key : ∀ t f p, c.threads t = some (f, p) → (∃ k, p = .act .undef k) → False := by
    have hb : ∀ v, arith T v = .ret (T.wrap v) := by intro v; simp [arith, hT]
    have : ∀ t f p, c.threads t = some (f, p) → p = body T f ∨ (∃ x v, p = .act (.store x v) fun _ => .ret none) ∨ ∃ y, p = .ret y := by
      induction h with
      | start => intro t f p h; cases h
      | @step tr c c' e h st ih =>
        intro t f p ht
        cases st with
        | inv t' f' h' =>
          by_cases e : t = t'
          · subst e; simp only [Function.update_self, Option.some.injEq, Prod.mk.injEq] at ht
            obtain ⟨rfl, rfl⟩ := ht
            exact Or.inl rfl
          · simp only [Function.update_of_ne e] at ht; exact ih t f p ht
        | ret t' f' y h' =>
          by_cases e : t = t'
          · subst e; simp at ht
          · simp only [Function.update_of_ne e] at ht; exact ih t f p ht
        | act t' f' a k r s' h' hs' =>
          by_cases e : t = t'
          · subst e; simp only [Function.update_self, Option.some.injEq, Prod.mk.injEq] at ht
            obtain ⟨rfl, rfl⟩ := ht
            rcases ih _ _ _ h' with hp | ⟨x, v, hp⟩ | ⟨y, hp⟩
            · cases f' <;> cases hp <;> simp only [hb] <;> first | exact Or.inr (Or.inr ⟨_, rfl⟩) | exact Or.inr (Or.inl ⟨_, _, rfl⟩)
            · cases hp; exact Or.inr (Or.inr ⟨_, rfl⟩)
            · cases hp
          · simp only [Function.update_of_ne e] at ht; exact ih t f p ht
    rintro t f p ht ⟨k, rfl⟩
    rcases this t f _ ht with hp | ⟨x, v, hp⟩ | ⟨y, hp⟩
    · cases f <;> cases hp
    · cases hp
    · cases hp
  rintro ⟨t, f, a, k, ht, hb⟩
  cases a <;> first | exact hb | exact key t f _ ht ⟨k, rfl⟩

/-! ### Order of what a thread sees -/

theorem Spec.Grows.delta_nonneg {x : Nat} {o : Op} (h : Spec.Grows x o) : 0 ≤ Spec.delta x o := by
  cases o <;> simp only [Spec.Grows, Spec.delta] at * <;> (try split) <;> simp_all

theorem Spec.Grows.not_sets {x : Nat} {o : Op} (h : Spec.Grows x o) : ¬ Spec.Sets x o := by
  cases o <;> simp_all [Spec.Grows, Spec.Sets]

theorem sum_nonneg_of {l : List (Nat × Op)} {x : Nat} (h : ∀ e ∈ l, Spec.Grows x e.2) : 0 ≤ (l.map fun e => Spec.delta x e.2).sum := by
  induction l with
  | nil => simp
  | cons e l ih =>
    simp only [List.map_cons, List.sum_cons]
    have := ih fun e he => h e (by simp [he])
    have := (h e (by simp)).delta_nonneg
    omega

theorem Spec.Fits.prefix {l l' : List (Nat × Op)} {x : Nat} {i : Int} (h : Spec.Fits T i x (l ++ l')) : Spec.Fits T i x l := by
  refine ⟨fun e he => h.grows e (by simp [he]), ?_⟩
  have := h.fits
  have h2 := sum_nonneg_of (l := l') fun e he => h.grows e (by simp [he])
  simp only [List.map_append, List.sum_append] at this
  omega

theorem Stage.not_done_of_act {z : Spec.Regs} {f : Op} {a : Act} {k : a.Res → P (Option Int)} {φ : Phase Op (Option Int)}
    (h : Stage T z f (.act a k) φ) (ha : a ≠ .undef) : φ = .pending f := by
  generalize hp : (Prog.act a k : P (Option Int)) = p at h
  cases h with
  | start => rfl
  | mid => rfl
  | fin y p h =>
    cases h with
    | ret => cases hp
    | stuck => cases hp; exact absurd rfl ha

/-- a thread about to add `d` to `x` does not overflow -/
theorem step_fits (h : Exec (sys T) (body T) (initial init) tr c) (x : Nat) (hr : T.InRange (init x)) (hf : Spec.Fits T (init x) x (invs tr))
    {t : Nat} {f : Op} {a : Act} {k : a.Res → P (Option Int)} (ht : c.threads t = some (f, .act a k)) (ha : a ≠ .undef) :
    T.lo ≤ c.shared.last x ∧ c.shared.last x + Spec.delta x f < T.lo + T.size ∧ Spec.Grows x f := by
  obtain ⟨L, ph, z, hw, rfl, hl, hj⟩ := (sim T).exec (J_initial T init) h
  have hph := (hj.run t f _ ht).not_done_of_act ha
  have h1 := Legal.val_eq hl x hr fun e he => (hf.grows _ (mem_invs_of_mem_lins hw he)).not_sets
  rw [hj.val] at h1
  obtain ⟨pend, hp, hpend, -⟩ := hw.invs_perm
  have hmem : (t, f) ∈ pend := (hpend t f).mpr hph
  have hgl : ∀ e ∈ (lins L).map (fun e => (e.1, e.2.1)), Spec.Grows x e.2 := fun e he => hf.grows e (hp.mem_iff.mpr (by simp only [List.mem_append]; exact Or.inl he))
  have hgp : ∀ e ∈ pend, Spec.Grows x e.2 := fun e he => hf.grows e (hp.mem_iff.mpr (by simp [he]))
  have hn1 := sum_nonneg_of hgl
  have hsum := hf.fits
  rw [(hp.map _).sum_eq, List.map_append, List.sum_append] at hsum
  have hn2 : Spec.delta x f ≤ (pend.map fun e => Spec.delta x e.2).sum := by
    obtain ⟨a, b, rfl⟩ := List.append_of_mem hmem
    have h1 := sum_nonneg_of (l := a) fun e he => hgp e (by simp [he])
    have h2 := sum_nonneg_of (l := b) fun e he => hgp e (by simp [he])
    simp only [List.map_append, List.map_cons, List.sum_append, List.sum_cons]
    omega
  have hgf := hgp _ hmem
  have hdf : 0 ≤ Spec.delta x f := hgf.delta_nonneg
  simp only [List.map_map, Function.comp_def] at hsum hn1
  have hr2 : T.InRange (init x + ((lins L).map fun e => Spec.delta x e.2.1).sum) := by
    unfold IntTy.InRange at hr ⊢; omega
  have h1 : c.shared.last x = init x + ((lins L).map fun e => Spec.delta x e.2.1).sum := by
    rw [h1]; exact wrap_of_inRange hr2
  unfold IntTy.InRange at hr hr2
  exact ⟨by omega, by omega, hgf⟩

/-- invariant of `C38_monotone` -/
structure Mono (T : IntTy) (x : Nat) (tr : List (Ev Op (Option Int))) (c : Config Act Act.Res Mem Op (Option Int)) : Prop where
  sorted : (c.shared.mo x).Pairwise (· ≤ ·)
  views : ∀ t, (Spec.views t x (rets tr)).Pairwise (· ≤ ·)
  /-- the newest value the thread saw is at least what it returned before; its running call's result, once known, is in between -/
  seen : ∀ t, ∃ v, (c.shared.mo x)[c.shared.seen t x]? = some v ∧ (∀ w ∈ Spec.views t x (rets tr), w ≤ v) ∧
    ∀ f y, c.threads t = some (f, .ret (some y)) → Spec.Reads x f → y ≤ v ∧ ∀ w ∈ Spec.views t x (rets tr), w ≤ y

theorem Mono.upd {x : Nat} (h : Mono T x tr c) {t : Nat} {f : Op} {p : P (Option Int)} {m : Mem} (hs : (m.mo x).Pairwise (· ≤ ·))
    (hpre : ∀ (i : Nat) (v : Int), (c.shared.mo x)[i]? = some v → (m.mo x)[i]? = some v)
    (hseen : ∀ t', t' ≠ t → m.seen t' x = c.shared.seen t' x)
    (hnew : ∀ v, (c.shared.mo x)[c.shared.seen t x]? = some v → ∃ v', (m.mo x)[m.seen t x]? = some v' ∧ v ≤ v' ∧
      ∀ y, p = .ret (some y) → Spec.Reads x f = true → v ≤ y ∧ y ≤ v') :
    Mono T x tr ⟨m, Function.update c.threads t (some (f, p))⟩ := by
  refine ⟨hs, h.views, ?_⟩
  intro t'
  obtain ⟨v, h1, h2, h3⟩ := h.seen t'
  by_cases e : t' = t
  · subst e
    obtain ⟨v', h4, h5, h6⟩ := hnew v h1
    refine ⟨v', h4, fun w hw => (h2 w hw).trans h5, ?_⟩
    intro f' y hf hr
    simp only [Function.update_self, Option.some.injEq, Prod.mk.injEq] at hf
    obtain ⟨rfl, hp⟩ := hf
    obtain ⟨h7, h8⟩ := h6 y hp hr
    exact ⟨h8, fun w hw => (h2 w hw).trans h7⟩
  · refine ⟨v, ?_, h2, ?_⟩
    · simp only [hseen t' e]; exact hpre _ _ h1
    · intro f' y hf hr
      simp only [Function.update_of_ne e] at hf
      exact h3 f' y hf hr

theorem mo_push_ne (m : Mem) (t : Nat) {x x' : Nat} (v : Int) (h : x' ≠ x) : (m.push t x' v).mo x = m.mo x := by
  have : x ≠ x' := fun e => h e.symm
  simp [Mem.push, Mem.mo, Function.update_of_ne this]

theorem mo_push_self (m : Mem) (t x : Nat) (v : Int) : (m.push t x v).mo x = m.mo x ++ [v] := by
  simp [Mem.push, Mem.mo]

/-- a write to another counter -/
theorem Mono.other {x x' : Nat} (h : Mono T x tr c) {t : Nat} {f : Op} {p : P (Option Int)} {v : Int} (hx : x' ≠ x)
    (hr : Spec.Reads x f = false) : Mono T x tr ⟨c.shared.push t x' v, Function.update c.threads t (some (f, p))⟩ := by
  have hx' : x ≠ x' := fun e => hx e.symm
  refine h.upd ?_ ?_ ?_ ?_
  · rw [mo_push_ne _ _ _ hx]; exact h.sorted
  · intro i v hv; rw [mo_push_ne _ _ _ hx]; exact hv
  · intro t' _; simp [Mem.push, hx']
  · intro v hv
    refine ⟨v, ?_, Int.le_refl _, ?_⟩
    · rw [mo_push_ne _ _ _ hx]; simpa [Mem.push, hx'] using hv
    · intro y _ h; rw [hr] at h; cases h

/-- a larger value is written -/
theorem Mono.grow {x : Nat} (h : Mono T x tr c) {t : Nat} {f : Op} {p : P (Option Int)} {v : Int} (hv : c.shared.last x ≤ v)
    (hy : ∀ y, p = .ret (some y) → c.shared.last x ≤ y ∧ y ≤ v) :
    Mono T x tr ⟨c.shared.push t x v, Function.update c.threads t (some (f, p))⟩ := by
  have hle : ∀ w ∈ c.shared.mo x, w ≤ c.shared.last x := by
    intro w hw
    have := h.sorted
    simp only [Mem.mo, List.mem_append, List.mem_singleton] at hw this
    rcases hw with hw | rfl
    · exact (List.pairwise_append.mp this).2.2 w hw _ (by simp)
    · exact Int.le_refl _
  refine h.upd ?_ ?_ ?_ ?_
  · rw [mo_push_self, List.pairwise_append]
    refine ⟨h.sorted, by simp, ?_⟩
    intro w hw u hu
    simp only [List.mem_singleton] at hu
    subst hu
    exact (hle w hw).trans hv
  · intro i w hw
    rw [mo_push_self]
    exact List.getElem?_append_left (List.getElem?_eq_some_iff.mp hw).1 ▸ hw
  · intro t' ht; simp [Mem.push, ht]
  · intro w hw
    have hwl := hle w (List.mem_of_getElem? hw)
    refine ⟨v, ?_, hwl.trans hv, ?_⟩
    · rw [mo_push_self]; simp [Mem.push]
    · intro y hp _
      exact ⟨hwl.trans (hy y hp).1, (hy y hp).2⟩

/-- a read -/
theorem Mono.look {x x' i : Nat} (h : Mono T x tr c) {t : Nat} {f : Op} {p : P (Option Int)} {v : Int} (hi : c.shared.seen t x' ≤ i)
    (hv : (c.shared.mo x')[i]? = some v) (hy : ∀ y, p = .ret (some y) → Spec.Reads x f = true → x' = x ∧ y = v) :
    Mono T x tr ⟨c.shared.look t x' i, Function.update c.threads t (some (f, p))⟩ := by
  refine h.upd h.sorted (fun i v h => h) ?_ ?_
  · intro t' ht; simp [Mem.look, ht]
  · intro w hw
    by_cases hx : x' = x
    · subst hx
      have hle : w ≤ v := by
        obtain ⟨h1, h2⟩ := List.getElem?_eq_some_iff.mp hw
        obtain ⟨h3, h4⟩ := List.getElem?_eq_some_iff.mp hv
        rcases Nat.lt_or_ge (c.shared.seen t x') i with hlt | hge
        · have := List.pairwise_iff_getElem.mp h.sorted _ _ h1 h3 hlt
          rw [h2, h4] at this; exact this
        · have : i = c.shared.seen t x' := by omega
          subst this
          rw [hw] at hv; cases hv; exact Int.le_refl _
      refine ⟨v, by simpa [Mem.look, Mem.mo] using hv, hle, ?_⟩
      intro y hp hr
      rw [(hy y hp hr).2]
      exact ⟨hle, Int.le_refl _⟩
    · have hx' : x ≠ x' := fun e => hx e.symm
      refine ⟨w, by simpa [Mem.look, Mem.mo, hx'] using hw, Int.le_refl _, ?_⟩
      intro y hp hr
      exact absurd (hy y hp hr).1 hx

theorem arith_ret {v y : Int} (h : (arith T v >>= fun r => pure (some r)) = (.ret (some y) : P (Option Int))) : y = T.wrap v := by
  unfold arith at h
  split at h
  · cases h
  · cases h; rfl

theorem Mono.exec (h : Exec (sys T) (body T) (initial init) tr c) (x : Nat) (hr : T.InRange (init x)) (hf : Spec.Fits T (init x) x (invs tr)) :
    Mono T x tr c := by
  induction h with
  | start =>
    refine ⟨by simp [initial, Mem.mo], fun t => by simp [Spec.views, rets], fun t => ⟨init x, by simp [initial, Mem.mo], ?_, ?_⟩⟩
    · simp [Spec.views, rets]
    · intro f y hc; cases hc
  | @step tr c c' e h st ih =>
    have ih := ih (by rw [invs_append] at hf; exact hf.prefix)
    cases st with
    | inv t f ht =>
      have hr0 : rets (tr ++ (some (Ev.inv t f) : Option (Ev Op (Option Int))).toList) = rets tr := by simp [rets_append, rets]
      refine ⟨ih.sorted, ?_, ?_⟩
      · rw [hr0]; exact ih.views
      · rw [hr0]
        intro t'
        obtain ⟨v, h1, h2, h3⟩ := ih.seen t'
        refine ⟨v, h1, h2, ?_⟩
        intro f' y hc hrd
        by_cases e : t' = t
        · subst e
          simp only [Function.update_self, Option.some.injEq, Prod.mk.injEq] at hc
          obtain ⟨rfl, hp⟩ := hc
          cases f <;> cases hp
        · simp only [Function.update_of_ne e] at hc
          exact h3 f' y hc hrd
    | ret t f y ht =>
      have hr0 : ∀ t', Spec.views t' x (rets (tr ++ (some (Ev.ret t f y) : Option (Ev Op (Option Int))).toList)) = Spec.views t' x (rets tr) ++
          (if t = t' ∧ Spec.Reads x f = true then y.toList else []) := by
        intro t'
        simp only [Option.toList_some, rets_append, rets, Spec.views, List.filterMap_append, List.filterMap_cons, List.filterMap_nil]
        congr 1
        by_cases hc : t = t' ∧ Spec.Reads x f = true
        · simp only [hc, and_self, if_true]
          cases y <;> rfl
        · rw [if_neg hc, if_neg hc]
      refine ⟨ih.sorted, ?_, ?_⟩
      · intro t'
        rw [hr0]
        by_cases hc : t = t' ∧ Spec.Reads x f = true
        · rw [if_pos hc]
          obtain ⟨rfl, hrd⟩ := hc
          cases y with
          | none => simpa using ih.views t
          | some y =>
            obtain ⟨v, h1, h2, h3⟩ := ih.seen t
            rw [List.pairwise_append]
            refine ⟨ih.views t, by simp, ?_⟩
            intro w hw u hu
            simp only [Option.toList_some, List.mem_singleton] at hu
            subst hu
            exact (h3 f u ht hrd).2 w hw
        · rw [if_neg hc, List.append_nil]; exact ih.views t'
      · intro t'
        obtain ⟨v, h1, h2, h3⟩ := ih.seen t'
        refine ⟨v, h1, ?_, ?_⟩
        · rw [hr0]
          intro w hw
          rw [List.mem_append] at hw
          rcases hw with hw | hw
          · exact h2 w hw
          · split at hw
            · rename_i hc
              obtain ⟨rfl, hrd⟩ := hc
              cases y with
              | none => simp at hw
              | some y =>
                simp only [Option.toList_some, List.mem_singleton] at hw
                subst hw
                exact (h3 f w ht hrd).1
            · simp at hw
        · intro f' y' hc hrd
          by_cases e : t' = t
          · subst e; simp at hc
          · simp only [Function.update_of_ne e] at hc
            rw [hr0, if_neg (fun h => e h.1.symm), List.append_nil]
            exact h3 f' y' hc hrd
    | act t f a k r m ht hd =>
      simp only [Option.toList_none, List.append_nil] at hf ⊢
      obtain ⟨L, ph, z, hw, hle, hl, hj⟩ := (sim T).exec (J_initial T init) h
      have hst := hj.run t f _ ht
      have hfit : a ≠ .undef → _ := step_fits h x hr hf ht
      generalize hp : (Prog.act a k : P (Option Int)) = p at hst
      generalize ph t = φ at hst
      cases hst with
      | fin y p hfin =>
        cases hfin with
        | ret => cases hp
        | stuck => cases hp; cases hd
      | mid x' s v hf' hv =>
        cases hp; cases hd
        subst hf'
        obtain ⟨-, -, hg⟩ := hfit (by simp)
        exact ih.other hg rfl
      | start =>
        cases f with
        | load x' =>
          cases hp; cases hd with
          | load _ _ i _ hi hv =>
            refine ih.look hi hv ?_
            intro y hy hrd
            cases hy
            exact ⟨by simpa [Spec.Reads] using hrd, rfl⟩
        | store x' i => cases hp; cases hd; exact ih.other (hfit (by simp)).2.2 rfl
        | setTo x' i => cases hp; cases hd; exact ih.other (hfit (by simp)).2.2 rfl
        | assign x' s =>
          cases hp; cases hd with
          | load _ _ i _ hi hv =>
            refine ih.look hi hv ?_
            intro y hy hrd
            cases hrd
        | preDec x' => cases hp; cases hd; exact ih.other (hfit (by simp)).2.2 (by simpa [Spec.Reads, Spec.Grows] using (hfit (by simp)).2.2)
        | postDec x' => cases hp; cases hd; exact ih.other (hfit (by simp)).2.2 (by simpa [Spec.Reads, Spec.Grows] using (hfit (by simp)).2.2)
        | sub x' i => cases hp; cases hd; exact ih.other (hfit (by simp)).2.2 (by simpa [Spec.Reads, Spec.Grows] using (hfit (by simp)).2.2)
        | preInc x' =>
          cases hp; cases hd
          by_cases hx : x' = x
          · subst hx
            obtain ⟨h1, h2, h3⟩ := hfit (by simp)
            simp only [Spec.delta, if_true] at h2
            have hwr : T.wrap (c.shared.last x' + 1) = c.shared.last x' + 1 := wrap_of_inRange ⟨by omega, by omega⟩
            refine ih.grow (by omega) ?_
            intro y hy
            rw [arith_ret hy]
            omega
          · exact ih.other hx (by simpa [Spec.Reads] using hx)
        | postInc x' =>
          cases hp; cases hd
          by_cases hx : x' = x
          · subst hx
            obtain ⟨h1, h2, h3⟩ := hfit (by simp)
            simp only [Spec.delta, if_true] at h2
            have hwr : T.wrap (c.shared.last x' + 1) = c.shared.last x' + 1 := wrap_of_inRange ⟨by omega, by omega⟩
            refine ih.grow (by omega) ?_
            intro y hy
            cases hy
            omega
          · exact ih.other hx (by simpa [Spec.Reads] using hx)
        | add x' i =>
          cases hp; cases hd
          by_cases hx : x' = x
          · subst hx
            obtain ⟨h1, h2, h3⟩ := hfit (by simp)
            simp only [Spec.delta, if_true] at h2
            have h3 : 0 ≤ i := h3 rfl
            have hwr : T.wrap (c.shared.last x' + i) = c.shared.last x' + i := wrap_of_inRange ⟨by omega, by omega⟩
            refine ih.grow (by omega) ?_
            intro y hy
            rw [arith_ret hy]
            omega
          · exact ih.other hx (by simpa [Spec.Reads] using hx)

/-- A counter that only grows (and does not overflow) never goes back in the eyes of a thread: the values a thread gets, by
loading as well as from its own increments, never decrease. -/
theorem C38_monotone (h : Exec (sys T) (body T) (initial init) tr c) (t x : Nat) (hr : T.InRange (init x))
    (hf : Spec.Fits T (init x) x (invs tr)) : (Spec.views t x (rets tr)).Pairwise (· ≤ ·) :=
  (Mono.exec h x hr hf).views t

/-- For signed types nothing undefined happens as long as every counter only grows and the sums fit. -/
theorem C38_no_ub_signed (h : Exec (sys T) (body T) (initial init) tr c) (hr : ∀ x, T.InRange (init x))
    (hf : ∀ x, Spec.Fits T (init x) x (invs tr)) : ¬ c.Bad (sys T) := by
  have hin : ∀ v, T.InRange v → arith T v = .ret (T.wrap v) := by intro v hv; simp [arith, hv]
  have key : ∀ t f k, c.threads t ≠ some (f, .act .undef k) := by
    induction h with
    | start => intro t f k h; cases h
    | @step tr c c' e h st ih =>
      have hf' : ∀ x, Spec.Fits T (init x) x (invs tr) := fun x => by have := hf x; rw [invs_append] at this; exact this.prefix
      have ih := ih hf'
      intro t f k ht
      cases st with
      | inv t' f' h' =>
        by_cases e : t = t'
        · subst e; simp only [Function.update_self, Option.some.injEq, Prod.mk.injEq] at ht
          obtain ⟨rfl, hp⟩ := ht
          cases f' <;> cases hp
        · simp only [Function.update_of_ne e] at ht; exact ih t f k ht
      | ret t' f' y h' =>
        by_cases e : t = t'
        · subst e; simp at ht
        · simp only [Function.update_of_ne e] at ht; exact ih t f k ht
      | act t' f' a k' r m h' hd =>
        by_cases e : t = t'
        · subst e; simp only [Function.update_self, Option.some.injEq, Prod.mk.injEq] at ht
          obtain ⟨rfl, hp'⟩ := ht
          obtain ⟨L, ph, z, hw, hle, hl, hj⟩ := (sim T).exec (J_initial T init) h
          have hst := hj.run t f' _ h'
          have hfit : ∀ x, a ≠ .undef → _ := fun x => step_fits h x (hr x) (hf' x) h'
          generalize hp : (Prog.act a k' : P (Option Int)) = p at hst
          generalize ph t = φ at hst
          cases hst with
          | fin y p hfin =>
            cases hfin with
            | ret => cases hp
            | stuck => cases hp; cases hd
          | mid x' s v hf' hv => cases hp; cases hp'
          | start =>
            cases f' with
            | preInc x =>
              cases hp; cases hd
              obtain ⟨h1, h2, h3⟩ := hfit x (by simp)
              simp only [Spec.delta, if_true] at h2
              simp only [Prog.bind] at hp'
              rw [hin (c.shared.last x + 1) ⟨by omega, by omega⟩] at hp'
              cases hp'
            | add x i =>
              cases hp; cases hd
              obtain ⟨h1, h2, h3⟩ := hfit x (by simp)
              simp only [Spec.delta, if_true] at h2
              have h3 : 0 ≤ i := h3 rfl
              simp only [Prog.bind] at hp'
              rw [hin (c.shared.last x + i) ⟨by omega, by omega⟩] at hp'
              cases hp'
            | preDec x => exact absurd rfl (hfit x (by cases hp; simp)).2.2
            | sub x i => exact absurd rfl (hfit x (by cases hp; simp)).2.2
            | _ => cases hp; cases hp'
        · simp only [Function.update_of_ne e] at ht; exact ih t f k ht
  rintro ⟨t, f, a, k, ht, hb⟩
  cases a <;> first | exact hb | exact key t f k ht

/-- The bound is needed: `++x` on a signed counter at its maximum is undefined, although `fetch_add` itself wraps (`x++` is
defined there). The sum `fetch_add(1) + 1` is computed in the signed type. -/
theorem C38_signed_overflow_defect (hT : T.strict = true) (hi : init 0 = T.lo + T.size - 1) :
    ∃ c, Exec (sys T) (body T) (initial init) [.inv 0 (.preInc 0)] c ∧ c.Bad (sys T) := by
  have e1 := Exec.step .start (Step.inv (sys := sys T) (body := body T) (c := initial init) 0 (.preInc 0) rfl)
  have e2 := e1.step (Step.act 0 (.preInc 0) _ _ _ _ rfl (.fetchAdd _ 0 1))
  refine ⟨_, e2, 0, .preInc 0, .undef, (fun e => nomatch e), ?_, trivial⟩
  · have : arith T (init 0 + 1) = .act .undef fun e => nomatch e := by
      unfold arith
      rw [if_pos ⟨hT, by unfold IntTy.InRange; omega⟩]
      congr 1
    simp only [Function.update_self, Option.some.injEq, Prod.mk.injEq, true_and]
    change ((arith T (init 0 + 1)).bind fun r => (pure (some r) : P (Option Int))) = _
    rw [this]
    simp only [Prog.bind]
    congr 1
    funext e
    cases e

/-! ### The hypotheses are met -/

/-- `unsigned char` -/
def u8 : IntTy := ⟨0, 256, by decide, false⟩
/-- 32-bit `int` -/
def i32 : IntTy := ⟨-2147483648, 4294967296, by decide, true⟩

/-- two threads increment the same counter at the same time -/
theorem example_exec : ∃ c, Exec (sys u8) (body u8) (initial fun _ => 254)
    [.inv 0 (.preInc 0), .inv 1 (.preInc 0), .ret 0 (.preInc 0) (some 0), .ret 1 (.preInc 0) (some 255)] c ∧
    c.Idle ∧ c.shared.last 0 = 0 := by
  have e1 := Exec.step .start (Step.inv (sys := sys u8) (body := body u8) (c := initial fun _ => 254) 0 (.preInc 0) rfl)
  have e2 := e1.step (Step.inv 1 (.preInc 0) rfl)
  have e3 := e2.step (Step.act 1 (.preInc 0) _ _ _ _ rfl (.fetchAdd _ 0 1))
  have e4 := e3.step (Step.act 0 (.preInc 0) _ _ _ _ rfl (.fetchAdd _ 0 1))
  have e5 := e4.step (Step.ret 0 (.preInc 0) (some 0) rfl)
  have e6 := e5.step (Step.ret 1 (.preInc 0) (some 255) rfl)
  refine ⟨_, e6, ?_, ?_⟩
  · intro t
    rcases t with _ | _ | t <;> simp [Function.update, initial]
  · rfl

/-- the hypotheses of `C38_no_lost_update`, `C38_tickets` and `C38_distinct` for it -/
example : (∀ e ∈ invs ([.inv 0 (.preInc 0), .inv 1 (.preInc 0)] : List (Ev Op (Option Int))), Spec.OnlyIncs 0 e.2 ∧ ¬ Spec.Sets 0 e.2) ∧
    u8.InRange 254 := by
  refine ⟨?_, by decide⟩
  intro e he
  simp only [invs, List.mem_cons, List.not_mem_nil, or_false] at he
  rcases he with rfl | rfl <;> simp [Spec.OnlyIncs, Spec.Incs, Spec.Sets]

/-- those of `C38_monotone` and `C38_no_ub_signed` -/
example (x : Nat) : Spec.Fits i32 7 x [(0, .preInc 0), (1, .load 0), (1, .add 0 5)] := by
  refine ⟨?_, ?_⟩
  · intro e he
    simp only [List.mem_cons, List.not_mem_nil, or_false] at he
    rcases he with rfl | rfl | rfl <;> simp [Spec.Grows]
  · simp only [List.map_cons, List.map_nil, List.sum_cons, List.sum_nil, Spec.delta, i32]
    split <;> omega

end Itlib.Counter
