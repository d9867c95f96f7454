import Verif.DataMutex.Lemmas

namespace Itlib.DataMutex
open Itlib.Conc Spec

variable {v₀ : Nat} {tr : List (Ev Op Out)} {c : Config Act Act.Res St Op Out}

theorem J_initial (v : Nat) : J [] (initial v) (start v) fun _ => .idle := by
  refine ⟨⟨?_, ?_, ?_⟩, rfl, fun t _ => ⟨rfl, ?_⟩, fun t => ?_, (by intro t f p h; cases h), (by intro t f p h; cases h)⟩
  · intro t; simp [initial, start]
  · intro t x k _ _ _ h; cases h
  · intro t; exact ⟨[], by simp, by simp [start], rfl⟩
  · funext i; cases i <;> rfl
  · rfl

theorem invariant (h : Exec (sys false) body (initial v₀) tr c) (ha : Follows Allowed tr) : ∃ z ph, J tr c z ph := by
  obtain ⟨L, ph, z, -, -, -, hj⟩ := (sim ok_body).exec (J_initial v₀) h ha
  exact ⟨z, ph, hj⟩

/-- Every execution of users that follow the rules is linearizable, if the mutex does not throw: calls behave as if executed one at
a time, a lock object becomes engaged only if no conflicting one is, and accesses see the last value written. -/
theorem C42_linearizable (h : Exec (sys false) body (initial v₀) tr c) (ha : Follows Allowed tr) : Linearizable Spec.call (start v₀) tr := by
  obtain ⟨L, ph, z, hw, he, hl, -⟩ := (sim ok_body).exec (J_initial v₀) h ha
  exact ⟨L, ph, z, hw, he, hl⟩

/-- Nothing undefined happens, if the mutex does not throw: in particular the mutex is never unlocked by a thread that has not
locked it, be it after moves or after failed attempts. What is missing: mutexes that throw, see `C42_lock_throws_defect`. -/
theorem C42_no_ub_partial (h : Exec (sys false) body (initial v₀) tr c) (ha : Follows Allowed tr) : ¬ c.Bad (sys false) := by
  obtain ⟨z, ph, hj⟩ := invariant h ha
  rintro ⟨t, f, a, k, ht, hb⟩
  obtain ⟨K, hr, hpre, -⟩ := hj.run t f _ ht
  exact not_bad hr hpre hj.mtx hb

/-- There is never a data race on the data. -/
theorem C42_no_race (h : Exec (sys false) body (initial v₀) tr c) (ha : Follows Allowed tr) : ¬ Racy c := by
  obtain ⟨z, ph, hj⟩ := invariant h ha
  rintro ⟨t, f, v, k, t', f', a', k', ht, ht', hne, ha'⟩
  obtain ⟨K, hr, ⟨-, x, -, hx⟩, -⟩ := hj.run t f _ ht
  obtain ⟨K', hr', hpre', -⟩ := hj.run t' f' _ ht'
  obtain ⟨x', k', hx'⟩ : ∃ x' k', z.objs t' x' = .engaged k' := by
    rcases ha' with rfl | ⟨v', rfl⟩
    · obtain ⟨-, x', k', -, hx'⟩ := hpre'
      exact ⟨x', k', by rw [hr'.slots]; exact hx'⟩
    · obtain ⟨-, x', -, hx'⟩ := hpre'
      exact ⟨x', _, by rw [hr'.slots]; exact hx'⟩
  rw [← hr.slots] at hx
  exact hne (hj.mtx.one _ _ _ _ _ _ hx rfl hx').1

/-- a granting object is engaged in the specification, perhaps under the name of the object it was moved to -/
theorem grants_engaged {z : Z} {ph : Nat → Phase Op Out} (hj : J tr c z ph) (t : Nat) :
    ∃ g : Nat → Nat, Function.Injective g ∧ ∀ x k, Grants tr c t x k → z.objs t (g x) = .engaged k := by
  have hb := hj.bal t
  cases hth : c.threads t with
  | none =>
    rw [(hj.idle t hth).1] at hb
    simp only [Bal] at hb
    exact ⟨id, Function.injective_id, fun x k h => by rw [hb]; exact h.1⟩
  | some fp =>
    obtain ⟨f, p⟩ := fp
    obtain ⟨hok, hph | ⟨y, hph⟩⟩ := hj.okc t f p hth
    · rw [hph] at hb
      simp only [Bal] at hb
      exact ⟨id, Function.injective_id, fun x k h => by rw [hb]; exact h.1⟩
    · rw [hph] at hb
      simp only [Bal] at hb
      have same : (∀ x k, Grants tr c t x k → eff f y (slot tr t) x = slot tr t x) →
          ∃ g : Nat → Nat, Function.Injective g ∧ ∀ x k, Grants tr c t x k → z.objs t (g x) = .engaged k := by
        intro hs
        exact ⟨id, Function.injective_id, fun x k h => by rw [hb, id, hs x k h]; exact h.1⟩
      have upd : ∀ (x₀ : Nat) (q : Slot), slot tr t x₀ = .absent → ∀ x k, Grants tr c t x k → Function.update (slot tr t) x₀ q x = slot tr t x := by
        intro x₀ q h0 x k hg
        have : x ≠ x₀ := by rintro rfl; have := hg.1; rw [h0] at this; cases this
        simp [this]
      cases f with
      | make k e x =>
        refine same fun x' k' hg => ?_
        cases y with
        | unit => exact upd x _ hok x' k' hg
        | _ => rfl
      | tryMake k e x =>
        refine same fun x' k' hg => ?_
        cases y with
        | flag b => cases b <;> exact upd x _ hok x' k' hg
        | _ => rfl
      | move d s =>
        refine ⟨Equiv.swap d s, (Equiv.swap d s).injective, fun x k hg => ?_⟩
        have hxd : x ≠ d := by rintro rfl; have := hg.1; rw [hok.1] at this; cases this
        rw [hb]
        simp only [eff]
        by_cases e : x = s
        · subst e; simpa using hg.1
        · simp [Equiv.swap_apply_of_ne_of_ne hxd e, hxd, e, hg.1]
      | destroy x =>
        refine same fun x' k' hg => ?_
        have : x' ≠ x := by rintro rfl; exact hg.2 p hth
        simp [eff, this]
      | write x v => exact same fun _ _ _ => rfl
      | read x => exact same fun _ _ _ => rfl
      | test x => exact same fun _ _ _ => rfl

/-- While a unique lock object is engaged, no other lock object grants access; so shared lock objects coexist only with shared ones. -/
theorem C42_exclusive (h : Exec (sys false) body (initial v₀) tr c) (ha : Follows Allowed tr) {t x t' x' : Nat} {k k' : Kind}
    (hg : Grants tr c t x k) (hk : k.excl = true) (hg' : Grants tr c t' x' k') : t = t' ∧ x = x' := by
  obtain ⟨z, ph, hj⟩ := invariant h ha
  obtain ⟨g, hi, h1⟩ := grants_engaged hj t
  obtain ⟨g', hi', h2⟩ := grants_engaged hj t'
  have e1 := h1 x k hg
  obtain ⟨rfl, -⟩ := hj.mtx.one _ _ _ _ _ _ e1 hk (h2 x' k' hg')
  obtain ⟨-, e⟩ := hj.mtx.one _ _ _ _ _ _ e1 hk (h1 x' k' hg')
  exact ⟨rfl, hi e⟩

theorem idle_objs {z : Z} {ph : Nat → Phase Op Out} (hj : J tr c z ph) {t : Nat} (hi : c.threads t = none) : z.objs t = slot tr t := by
  have := hj.bal t
  rw [(hj.idle t hi).1] at this
  exact this

/-- When no call is running, the mutex is locked exactly by the engaged lock objects: uniquely by `t` if `t` has an engaged unique
lock object, and shared by `t` as often as `t` has engaged shared ones. So every successful lock is undone exactly once, when the
last object it was moved to is destroyed. What is missing: mutexes that throw, see `C42_lock_throws_defect`. -/
theorem C42_balanced_partial (h : Exec (sys false) body (initial v₀) tr c) (ha : Follows Allowed tr) (hi : c.Idle) :
    (∀ t, c.shared.writer = some t ↔ ∃ x k, slot tr t x = .engaged k ∧ k.excl = true) ∧
    (∀ t, ∃ l : List Nat, l.Nodup ∧ (∀ x, x ∈ l ↔ slot tr t x = .engaged .shared) ∧ c.shared.readers t = l.length) := by
  obtain ⟨z, ph, hj⟩ := invariant h ha
  refine ⟨fun t => ?_, fun t => ?_⟩
  · rw [hj.mtx.writer, idle_objs hj (hi t)]
  · have := hj.mtx.readers t
    rw [idle_objs hj (hi t)] at this
    exact this

/-- The bool interface tells whether the object is engaged, an engaged object grants access, a moved-from one is not engaged. -/
theorem C42_objects (h : Exec (sys false) body (initial v₀) tr c) (ha : Follows Allowed tr) {t : Nat} (hi : c.threads t = none) (x : Nat) :
    c.shared.objs t (.user x) = ofSlot (slot tr t x) ∧ c.shared.objs t .tmp = none := by
  obtain ⟨z, ph, hj⟩ := invariant h ha
  rw [(hj.idle t hi).2, idle_objs hj hi]
  exact ⟨rfl, rfl⟩

/-- A call waits only in `unique_lock()` or `shared_lock()`, and, if the other threads are not running calls, only while some
conflicting lock object is engaged. -/
theorem C42_waits_only_for_conflict (h : Exec (sys false) body (initial v₀) tr c) (ha : Follows Allowed tr) {t : Nat} {f : Op} {a : Act}
    {k : a.Res → P Out} (ht : c.threads t = some (f, .act a k)) (hw : ∀ r s', ¬ Does false t a c.shared r s') :
    ∃ kd b x, f = .make kd b x ∧ ((∀ t', t' ≠ t → c.threads t' = none) →
      ∃ t' x' k', slot tr t' x' = .engaged k' ∧ (kd.excl = true ∨ k'.excl = true)) := by
  obtain ⟨z, ph, hj⟩ := invariant h ha
  obtain ⟨K, hr, hpre, -⟩ := hj.run t f _ ht
  cases a with
  | lock e =>
    obtain ⟨hph, kd, b, x, rfl, hk, hx⟩ := hpre
    refine ⟨kd, b, x, rfl, fun hoth => ?_⟩
    have hz : ∀ t', z.objs t' = slot tr t' := by
      intro t'
      by_cases e : t' = t
      · subst e
        have := hj.bal t'
        rw [hr.ph, hph] at this
        exact this
      · exact idle_objs hj (hoth t' e)
    cases hwr : c.shared.writer with
    | some t' =>
      obtain ⟨x', k', h1, h2⟩ := (hj.mtx.writer t').mp hwr
      exact ⟨t', x', k', by rw [← hz]; exact h1, Or.inr h2⟩
    | none =>
      cases e with
      | false => exact absurd (Does.lockS _ hwr) (hw _ _)
      | true =>
        by_contra hne
        refine hw _ _ (Does.lockX _ hwr fun t' => ?_)
        obtain ⟨l, -, h2, h3⟩ := hj.mtx.readers t'
        rw [h3, List.length_eq_zero_iff, List.eq_nil_iff_forall_not_mem]
        intro x' hx'
        exact hne ⟨t', x', .shared, by rw [← hz]; exact (h2 x').mp hx', Or.inl hk⟩
  | tryLock e => exact absurd (Does.tryFails _ _) (hw _ _)
  | unlock e => cases e <;> first | exact absurd (Does.unlockX _) (hw _ _) | exact absurd (Does.unlockS _) (hw _ _)
  | newObj i k p => exact absurd (Does.newObj _ _ _ _) (hw _ _)
  | rdObj i =>
    obtain ⟨o, ho, -⟩ := hpre
    rw [← hr.objs] at ho
    exact absurd (Does.rdObj _ _ _ ho) (hw _ _)
  | setPtr i p =>
    obtain ⟨o, ho⟩ := Option.ne_none_iff_exists'.mp hpre
    rw [← hr.objs] at ho
    exact absurd (Does.setPtr _ _ _ _ ho) (hw _ _)
  | delObj i => exact absurd (Does.delObj _ _) (hw _ _)
  | rdData => exact absurd (Does.rdData _) (hw _ _)
  | wrData v => exact absurd (Does.wrData _ _) (hw _ _)
  | undef => exact hpre.elim

/-! ### Defects -/

/-- Defect: if `lock()` or `lock_shared()` of the mutex throws, the mutex is unlocked although it was never locked. This can happen
whenever a thread that has not locked the mutex locks it. -/
theorem C42_lock_throws_defect (h : Exec (sys true) body (initial v₀) tr c) (ha : Follows Allowed tr) {t x : Nat} (ht : c.threads t = none)
    (hx : slot tr t x = .absent) (kd : Kind) (hw : if kd.excl then c.shared.writer ≠ some t else c.shared.readers t = 0) :
    ∃ tr' c', Exec (sys true) body (initial v₀) (tr ++ tr') c' ∧ Follows Allowed (tr ++ tr') ∧ c'.Bad (sys true) := by
  have e0 := h.call ht (.make kd true x)
  have e1 := ((e0.goOn (.newObj _ _ _ _)).goOn (.lockThrows _ _ rfl)).goOn (.rdObj _ _ ⟨kd, .data⟩ (by simp [St.setObj]))
  refine ⟨_, _, e1, ha.inv hx, t, .make kd true x, .unlock kd.excl, _, Function.update_self .., ?_⟩
  cases hk : kd.excl <;> simp only [hk] at hw
  · exact (by simpa using hw : c.shared.readers t = 0)
  · exact (by simpa using hw : c.shared.writer ≠ some t)

/-- Defect: if `try_lock()` or `try_lock_shared()` throws, the destructor reads a pointer that was never written. -/
theorem C42_try_lock_throws_defect (h : Exec (sys true) body (initial v₀) tr c) (ha : Follows Allowed tr) {t x : Nat} (ht : c.threads t = none)
    (hx : slot tr t x = .absent) (kd : Kind) :
    ∃ tr' c', Exec (sys true) body (initial v₀) (tr ++ tr') c' ∧ Follows Allowed (tr ++ tr') ∧ c'.Bad (sys true) := by
  have e0 := h.call ht (.tryMake kd true x)
  have e1 := (e0.goOn (.newObj _ _ _ _)).goOn (.tryThrows _ _ rfl)
  refine ⟨_, _, e1, ha.inv hx, t, .tryMake kd true x, .rdObj (.user x), _, Function.update_self .., ?_⟩
  intro o ho
  simp only [St.setObj, Function.update_self, Option.some.injEq] at ho
  subst ho
  rfl

/-! ### A concrete case -/

/-- thread 0 gets a unique lock (through a move) and writes, thread 1 fails to get a shared lock -/
def exampleTrace : List (Ev Op Out) :=
  [.inv 0 (.make .unique false 3), .ret 0 (.make .unique false 3) .unit, .inv 0 (.write 3 7), .ret 0 (.write 3 7) .unit,
   .inv 1 (.tryMake .shared true 0), .ret 1 (.tryMake .shared true 0) (.flag false)]

theorem example_exec : (∃ c, Exec (sys false) body (initial v₀) exampleTrace c ∧ Grants exampleTrace c 0 3 .unique ∧ c.shared.data = 7) ∧
    Follows Allowed exampleTrace := by
  refine ⟨?_, ?_⟩
  · have e0 := (Exec.start (sys := sys false) (body := body) (c₀ := initial v₀)).call (t := 0) rfl (.make .unique false 3)
    have e1 := (e0.goOn (.newObj _ _ _ _)).goOn (.lockX _ rfl fun _ => rfl)
    have e2 := e1.goOn (.rdObj _ _ ⟨.unique, .data⟩ (by simp [St.setObj]))
    have e3 := (e2.goOn (.newObj _ _ _ _)).goOn (.setPtr _ _ _ ⟨.unique, .data⟩ (by simp [St.setObj]))
    have e4 := e3.goOn (.rdObj _ _ ⟨.unique, .null⟩ (by simp [St.setObj]))
    have e5 := (e4.goOn (.delObj _ _)).done
    have f0 := e5.call (t := 0) (by simp) (.write 3 7)
    have f1 := f0.goOn (.rdObj _ _ ⟨.unique, .data⟩ (by simp [St.setObj]))
    have f2 := (f1.goOn (.wrData _ _)).done
    have g0 := f2.call (t := 1) (by simp [initial]) (.tryMake .shared true 0)
    have g1 := (g0.goOn (.newObj _ _ _ _)).goOn (.tryFails _ _)
    have g2 := (g1.goOn (.setPtr _ _ _ ⟨.shared, .indet⟩ (by simp [St.setObj]))).done
    refine ⟨_, g2, ⟨by simp [exampleTrace, slot, slots, eff], ?_⟩, rfl⟩
    intro p
    simp
  · refine Follows.ret (tr := [_, _, _, _, _]) ?_ _ _ _
    refine Follows.inv (tr := [_, _, _, _]) ?_ (by simp [Allowed, Ok, slot, slots])
    refine Follows.ret (tr := [_, _, _]) ?_ _ _ _
    refine Follows.inv (tr := [_, _]) ?_ (by simp [Allowed, Ok, slot, slots, eff])
    refine Follows.ret (tr := [_]) ?_ _ _ _
    exact Follows.inv (tr := []) Follows.nil (by simp [Allowed, Ok, slot, slots])

end Itlib.DataMutex
