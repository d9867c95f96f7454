import Verif.ASptr.Lemmas

namespace Itlib.ASptr
open Itlib.Conc

variable {v₀ : SP} {tr : List (Ev Op Out)} {c : Config Act Act.Res St Op Out}

theorem J_initial (v : SP) : J (initial v) (Spec.start v) fun _ => .idle := by
  refine ⟨?_, fun _ => rfl, (by intro t h; cases h), fun t _ => ⟨rfl, ?_⟩, (by intro t f p h; cases h)⟩
  · intro q hq
    by_cases h : q = v.ctl
    · subst h
      refine ⟨[.storage], by simp, ?_, by simp [initial]⟩
      intro p
      cases p <;> simp [initial, Spec.owns, null]
      · exact fun e => hq e.symm
      · exact fun e => hq e.symm
    · refine ⟨[], by simp, ?_, by simp [initial, h]⟩
      intro p
      cases p <;> simp [initial, Spec.owns, null]
      · exact fun e => h e.symm
      · exact fun e => hq e.symm
      · exact fun e => hq e.symm
  · funext x; cases x <;> rfl

theorem invariant (h : Exec sys body (initial v₀) tr c) : ∃ z ph, J c z ph := by
  obtain ⟨L, ph, z, -, -, -, hj⟩ := (sim ok_body).exec (J_initial v₀) h
  exact ⟨z, ph, hj⟩

/-- Every execution is linearizable: the storage behaves like an atomic register of whole pointers. -/
theorem C39_linearizable (h : Exec sys body (initial v₀) tr c) : Linearizable Spec.call (Spec.start v₀) tr := by
  obtain ⟨L, ph, z, hw, he, hl, -⟩ := (sim ok_body).exec (J_initial v₀) h
  exact ⟨L, ph, z, hw, he, hl⟩

/-- Nothing undefined happens: no data race on the stored pointer, no use of a control block without owners, no thread waits for
a lock it holds itself. -/
theorem C39_no_ub (h : Exec sys body (initial v₀) tr c) : ¬ c.Bad sys := by
  obtain ⟨z, ph, hj⟩ := invariant h
  rintro ⟨t, f, a, k, ht, hb⟩
  obtain ⟨K, hr, hpre, -⟩ := hj.run t f _ ht
  exact not_bad hr hpre hj.exact_ hb

/-- At every moment every reference count is the number of owners. -/
theorem C39_counts (h : Exec sys body (initial v₀) tr c) : Spec.Exact (Spec.owns c.shared) c.shared.count := by
  obtain ⟨z, ph, hj⟩ := invariant h
  exact hj.exact_

/-- An object is alive (its count is not zero) as long as some pointer to it is held, anywhere. -/
theorem C39_alive (h : Exec sys body (initial v₀) tr c) (p : Spec.Place) (hp : Spec.owns c.shared p ≠ 0) :
    0 < c.shared.count (Spec.owns c.shared p) := Exact.pos (C39_counts h) hp

/-- A step destroys the object of `q` exactly if it removes its last owner. -/
theorem C39_destroyed_last (h : Exec sys body (initial v₀) tr c) {e : Option (Ev Op Out)} {c' : Config Act Act.Res St Op Out}
    (hs : Step sys body c e c') (q : Nat) (hq : q ≠ 0) (ho : ∃ p, Spec.owns c.shared p = q) :
    (∀ p, Spec.owns c'.shared p ≠ q) ↔ ∃ t b, c'.shared.log = c.shared.log ++ [(t, q, b)] := by
  have hx := C39_counts h
  have hx' := C39_counts (h.step hs)
  obtain ⟨p₀, hp₀⟩ := ho
  have hpos : 0 < c.shared.count q := by have := Exact.pos hx (a := p₀) (by rw [hp₀]; exact hq); rwa [hp₀] at this
  have hnone : (∀ p, Spec.owns c'.shared p ≠ q) ↔ c'.shared.count q = 0 := by
    obtain ⟨l, -, h2, h3⟩ := hx' q hq
    rw [h3, List.length_eq_zero_iff, List.eq_nil_iff_forall_not_mem]
    exact forall_congr' fun p => by rw [h2]
  rw [hnone]
  have same : c'.shared.count = c.shared.count → c'.shared.log = c.shared.log →
      (c'.shared.count q = 0 ↔ ∃ t b, c'.shared.log = c.shared.log ++ [(t, q, b)]) := by
    intro h1 h2
    rw [h1, h2]
    constructor
    · intro h; omega
    · rintro ⟨t, b, h⟩
      have := congrArg List.length h
      simp at this
  have incr : ∀ q', c'.shared.count = (c.shared.inc q').count → c'.shared.log = c.shared.log →
      (c'.shared.count q = 0 ↔ ∃ t b, c'.shared.log = c.shared.log ++ [(t, q, b)]) := by
    intro q' h1 h2
    rw [h1, h2]
    constructor
    · intro h
      unfold St.inc at h
      split at h
      · omega
      · by_cases e : q = q'
        · subst e; simp at h
        · simp only [Function.update_of_ne e] at h; omega
    · rintro ⟨t, b, h⟩
      have := congrArg List.length h
      simp at this
  cases hs with
  | inv t f ht => exact same rfl rfl
  | ret t f y ht => exact same rfl rfl
  | act t f a k r s' ht hd =>
    cases hd with
    | acquire _ x p q' => exact incr q' rfl (by simp only [St.set, St.inc]; split <;> rfl)
    | make _ x v hv hz => exact incr v.ctl rfl (by simp only [St.set, St.inc]; split <;> rfl)
    | release _ x =>
      by_cases h0 : (c.shared.cells t x).ctl = 0
      · exact same (by simp only [St.set, St.dec, if_pos h0]) (by simp only [St.set, St.dec, if_pos h0])
      · simp only [St.set, St.dec, if_neg h0]
        by_cases e : q = (c.shared.cells t x).ctl
        · subst e
          simp only [Function.update_self]
          constructor
          · intro h
            rw [if_pos (by omega)]
            exact ⟨t, _, rfl⟩
          · rintro ⟨t', b, h⟩
            split at h
            · omega
            · have := congrArg List.length h
              simp at this
        · simp only [Function.update_of_ne e]
          constructor
          · intro h; omega
          · rintro ⟨t', b, h⟩
            split at h
            · have := List.append_cancel_left h
              simp only [List.cons.injEq, Prod.mk.injEq, and_true] at this
              exact absurd this.2.1.symm e
            · have := congrArg List.length h
              simp at this
    | lock => exact same rfl rfl
    | unlock => exact same rfl rfl
    | rdPtr => exact same rfl rfl
    | rdCtl => exact same rfl rfl
    | wrPtr => exact same rfl rfl
    | wrCtl => exact same rfl rfl
    | rd => exact same rfl rfl
    | move => exact same rfl rfl
    | swap => exact same rfl rfl
    | deref => exact same rfl rfl
    | xchg => exact same rfl rfl

/-- There is always an unused control block: `make_shared` does not wait. -/
theorem fresh (h : Exec sys body (initial v₀) tr c) : ∃ q, q ≠ 0 ∧ c.shared.count q = 0 := by
  suffices ∃ n, ∀ q, n ≤ q → c.shared.count q = 0 by
    obtain ⟨n, hn⟩ := this
    exact ⟨n + 1, by omega, hn _ (by omega)⟩
  induction h with
  | start => exact ⟨v₀.ctl + 1, fun q hq => if_neg (by omega)⟩
  | @step tr c c' e h hs ih =>
    obtain ⟨n, hn⟩ := ih
    have inc : ∀ q', ∃ n, ∀ q, n ≤ q → (c.shared.inc q').count q = 0 := by
      intro q'
      refine ⟨max n (q' + 1), fun q hq => ?_⟩
      unfold St.inc
      split
      · exact hn q (by omega)
      · simp only [Function.update_of_ne (show q ≠ q' by omega)]
        exact hn q (by omega)
    cases hs with
    | inv t f ht => exact ⟨n, hn⟩
    | ret t f y ht => exact ⟨n, hn⟩
    | act t f a k r s' ht hd =>
      cases hd with
      | acquire _ x p q' => exact inc q'
      | make _ x v hv hz => exact inc v.ctl
      | release _ x =>
        refine ⟨n, fun q hq => ?_⟩
        simp only [St.set, St.dec]
        split
        · exact hn q hq
        · by_cases e : q = (c.shared.cells t x).ctl
          · subst e; simp [hn _ hq]
          · simp only [Function.update_of_ne e]; exact hn q hq
      | _ => exact ⟨n, hn⟩

/-- While calls are running, some running call can make its next step: the lock is never held by a thread that is stuck or gone. -/
theorem C39_progress (h : Exec sys body (initial v₀) tr c) {t₀ : Nat} (hr : c.threads t₀ ≠ none) :
    (∃ t f y, c.threads t = some (f, .ret y)) ∨ ∃ t f a k r s', c.threads t = some (f, .act a k) ∧ sys.step t a c.shared r s' := by
  obtain ⟨z, ph, hj⟩ := invariant h
  obtain ⟨q₀, hq₀, hc₀⟩ := fresh h
  have key : ∀ t, c.threads t ≠ none → (c.shared.holder = none ∨ c.shared.holder = some t) →
      (∃ t f y, c.threads t = some (f, .ret y)) ∨ ∃ t f a k r s', c.threads t = some (f, .act a k) ∧ sys.step t a c.shared r s' := by
    intro t ht hh
    obtain ⟨⟨f, p⟩, hp⟩ := Option.ne_none_iff_exists'.mp ht
    cases p with
    | ret y => exact Or.inl ⟨t, f, y, hp⟩
    | act a k =>
      right
      obtain ⟨K, hrel, hpre, -⟩ := hj.run t f _ hp
      cases a with
      | lock =>
        rcases hh with hh | hh
        · exact ⟨t, f, _, k, _, _, hp, .lock _ hh⟩
        · exact absurd hh (hrel.out hpre)
      | unlock => exact ⟨t, f, _, k, _, _, hp, .unlock _⟩
      | rdPtr => exact ⟨t, f, _, k, _, _, hp, .rdPtr _⟩
      | rdCtl => exact ⟨t, f, _, k, _, _, hp, .rdCtl _⟩
      | wrPtr x => exact ⟨t, f, _, k, _, _, hp, .wrPtr _ x⟩
      | wrCtl x p q => exact ⟨t, f, _, k, _, _, hp, .wrCtl _ x p q⟩
      | rd x => exact ⟨t, f, _, k, _, _, hp, .rd _ x⟩
      | acquire x p q => exact ⟨t, f, _, k, _, _, hp, .acquire _ x p q⟩
      | make x => exact ⟨t, f, _, k, _, _, hp, .make _ x ⟨q₀, q₀⟩ hq₀ hc₀⟩
      | release x => exact ⟨t, f, _, k, _, _, hp, .release _ x⟩
      | move d x => exact ⟨t, f, _, k, _, _, hp, .move _ d x⟩
      | swap a b => exact ⟨t, f, _, k, _, _, hp, .swap _ a b⟩
      | deref x => exact ⟨t, f, _, k, _, _, hp, .deref _ x⟩
      | xchg x b => exact ⟨t, f, _, k, _, _, hp, .xchg _ x b⟩
  rcases hh : c.shared.holder with _ | t
  · exact key t₀ hr (Or.inl hh)
  · exact key t (hj.held t hh) (Or.inr hh)

/-! ### Destructors under the lock -/

/-- specification with history -/
def callH (z : Spec.Z × List (Nat × Op × Out)) (e : Nat × Op × Out) (z' : Spec.Z × List (Nat × Op × Out)) : Prop :=
  Spec.call z.1 e z'.1 ∧ z'.2 = z.2 ++ [e]

theorem callH_history {z z' : Spec.Z × List (Nat × Op × Out)} {l : List (Nat × Op × Out)} (h : Legal callH z l z') : z'.2 = z.2 ++ l := by
  induction h with
  | nil => simp
  | snoc _ hs ih => rw [hs.2, ih, List.append_assoc]

/-- simulation relation with history -/
structure JH (c : Config Act Act.Res St Op Out) (z : Spec.Z × List (Nat × Op × Out)) (ph : Nat → Phase Op Out) : Prop where
  base : J c z.1 ph
  done : ∀ t f y, ph t = .done f y → (t, f, y) ∈ z.2 ∧ ∃ p, c.threads t = some (f, p)
  log : ∀ t q, (t, q, true) ∈ c.shared.log → ∃ mv e x, (t, .cas mv e x, .flag false) ∈ z.2

theorem simH : Sim sys body callH JH where
  inv := by
    intro c z ph t f h ht
    obtain ⟨h1, h2⟩ := (sim ok_body).inv c z.1 ph t f h.base ht
    refine ⟨h1, h2, ?_, h.log⟩
    intro t' f' y hp
    by_cases e : t' = t
    · subst e; simp at hp
    · simp only [Function.update_of_ne e] at hp ⊢
      exact h.done t' f' y hp
  ret := by
    intro c z ph t f y h ht
    obtain ⟨h1, h2⟩ := (sim ok_body).ret c z.1 ph t f y h.base ht
    refine ⟨h1, h2, ?_, h.log⟩
    intro t' f' y' hp
    by_cases e : t' = t
    · subst e; simp at hp
    · simp only [Function.update_of_ne e] at hp ⊢
      exact h.done t' f' y' hp
  act := by
    intro c z ph t f a k r s' h ht hd
    have hlog : ∀ t' q, (t', q, true) ∈ s'.log → ∃ mv e x, (t', .cas mv e x, .flag false) ∈ z.2 := by
      intro t' q hm
      by_cases hold : (t', q, true) ∈ c.shared.log
      · exact h.log t' q hold
      · obtain ⟨K, hr, hpre, -⟩ := h.base.run t f _ ht
        cases hd with
        | release _ x =>
          simp only [St.set, St.dec] at hm
          split at hm
          · exact absurd hm hold
          · simp only at hm
            split at hm
            · simp only [List.mem_append, List.mem_singleton, Prod.mk.injEq] at hm
              rcases hm with hm | ⟨rfl, rfl, hh⟩
              · exact absurd hm hold
              · have hcs : K.cs ≠ none := fun hn => hr.out hn (by simpa using hh.symm)
                obtain ⟨⟨mv, e, y, rfl⟩, hph⟩ := hpre hcs
                refine ⟨mv, e, y, (h.done _ _ _ ?_).1⟩
                rw [hr.ph, hph]
            · exact absurd hm hold
        | acquire _ x p q' => simp only [St.set, St.inc] at hm; split at hm <;> exact absurd hm hold
        | make _ x v hv hz => simp only [St.set, St.inc] at hm; split at hm <;> exact absurd hm hold
        | _ => exact absurd hm hold
    rcases (sim ok_body).act c z.1 ph t f a k r s' h.base ht hd with hj | ⟨y, z', h1, h2, h3⟩
    · left
      refine ⟨hj, ?_, hlog⟩
      intro t' f' y' hp
      obtain ⟨h1, p, h2⟩ := h.done t' f' y' hp
      refine ⟨h1, ?_⟩
      by_cases e : t' = t
      · subst e
        rw [ht] at h2; cases h2
        exact ⟨k r, by simp⟩
      · exact ⟨p, by simpa [e] using h2⟩
    · right
      refine ⟨y, (z', z.2 ++ [(t, f, y)]), h1, ⟨h2, rfl⟩, h3, ?_, ?_⟩
      · intro t' f' y' hp
        by_cases e : t' = t
        · subst e
          simp only [Function.update_self] at hp
          cases hp
          exact ⟨by simp, k r, by simp⟩
        · simp only [Function.update_of_ne e] at hp ⊢
          obtain ⟨h4, p, h5⟩ := h.done t' f' y' hp
          exact ⟨by simp [h4], p, h5⟩
      · intro t' q hm
        obtain ⟨mv, e, x, hmem⟩ := hlog t' q hm
        exact ⟨mv, e, x, by simp [hmem]⟩

/-- An object is destroyed by a thread holding the lock only inside a failing `compare_exchange` of that thread (that has returned
`false`, or is still running). Missing from the full claim: that this does not happen either, which is false
(`C40_destructor_under_lock_defect`). -/
theorem C40_only_failing_cas_partial (h : Exec sys body (initial v₀) tr c) (t q : Nat) (hl : (t, q, true) ∈ c.shared.log) :
    ∃ mv e x, (t, .cas mv e x, .flag false) ∈ rets tr ∨ ∃ p, c.threads t = some (.cas mv e x, p) := by
  obtain ⟨L, ph, z, hw, rfl, hleg, hj⟩ := simH.exec (z₀ := (Spec.start v₀, [])) ⟨J_initial v₀, (by intro _ _ _ h; cases h), (by intro _ _ h; simp [initial] at h)⟩ h
  obtain ⟨mv, e, x, hmem⟩ := hj.log t q hl
  refine ⟨mv, e, x, ?_⟩
  rw [callH_history hleg, List.nil_append] at hmem
  obtain ⟨dn, hd, hdn, -⟩ := hw.rets_perm
  rw [hd.mem_iff, List.mem_append] at hmem
  rcases hmem with hmem | hmem
  · exact Or.inl hmem
  · right
    rw [hdn] at hmem
    exact (hj.done _ _ _ hmem).2

/-- `store`, `exchange` and `load` never destroy anything under the lock: without calls of `compare_exchange` no object is ever
destroyed by a thread that holds it. -/
theorem C40_no_cas (h : Exec sys body (initial v₀) tr c) (hc : ∀ t mv e x, (t, Op.cas mv e x) ∉ invs tr) (t q : Nat) :
    (t, q, true) ∉ c.shared.log := by
  intro hl
  obtain ⟨L, ph, z, hw, rfl, hleg, hj⟩ := simH.exec (z₀ := (Spec.start v₀, [])) ⟨J_initial v₀, (by intro _ _ _ h; cases h), (by intro _ _ h; simp [initial] at h)⟩ h
  obtain ⟨mv, e, x, hmem⟩ := hj.log t q hl
  rw [callH_history hleg, List.nil_append] at hmem
  obtain ⟨pend, hp, -⟩ := hw.invs_perm
  refine hc t mv e x (hp.mem_iff.mpr ?_)
  simp only [List.mem_append, List.mem_map]
  exact Or.inl ⟨_, hmem, rfl⟩

/-- Whenever a thread's `expect` is the last owner of its object and differs from the stored pointer, `compare_exchange` destroys
the object while holding the lock: `expect = m_ptr` releases the old value inside the guarded scope. At that moment no
thread, in particular not the destructor itself, can get the lock. -/
theorem C40_destructor_under_lock_defect (h : Exec sys body (initial v₀) tr c) (t e x : Nat) (hidle : c.threads t = none)
    (hfree : c.shared.holder = none) (hq : (c.shared.cells t (.user e)).ctl ≠ 0) (hlast : c.shared.count (c.shared.cells t (.user e)).ctl = 1)
    (hx : (c.shared.cells t (.user x)).ctl = 0) (hne : c.shared.mp ≠ (c.shared.cells t (.user e)).ptr) :
    ∃ c', Exec sys body (initial v₀) (tr ++ [.inv t (.cas false e x)]) c' ∧ (t, (c.shared.cells t (.user e)).ctl, true) ∈ c'.shared.log ∧
      c'.shared.holder = some t ∧ ∀ t' r s', ¬ sys.step t' .lock c'.shared r s' := by
  obtain ⟨z, ph, hj⟩ := invariant h
  have hcells : ∀ y, y = .prm ∨ y = .prm2 ∨ y = .res ∨ y = .tmp → c.shared.cells t y = null := by
    intro y hy
    rw [(hj.idle t hidle).2]
    rcases hy with rfl | rfl | rfl | rfl <;> rfl
  have hmc : c.shared.mc ≠ (c.shared.cells t (.user e)).ctl := by
    intro heq
    obtain ⟨l, h1, h2, h3⟩ := hj.exact_ _ hq
    have m1 := (h2 .storage).mpr heq
    have m2 := (h2 (.var t (.user e))).mpr rfl
    rw [hlast] at h3
    match l, h3, m1, m2 with
    | [a], _, m1, m2 =>
      simp only [List.mem_singleton] at m1 m2
      rw [← m1] at m2
      cases m2
  have e0 := h.call hidle (.cas false e x)
  have e1 := e0.goOn (.rd _ (.user x))
  have e2 := e1.goOn (.acquire _ .prm _ _)
  have e3 := e2.goOn (.move _ .prm2 .prm)
  have e4 := e3.goOn (.lock _ (by simpa [St.set, (St.inc_frame _ _).2.1] using hfree))
  obtain ⟨s, hs, e5⟩ : ∃ s : St, (s.holder = some t ∧ s.mp = c.shared.mp ∧ s.mc = c.shared.mc ∧
      s.cells t (.user e) = c.shared.cells t (.user e) ∧ s.count = c.shared.count) ∧
      Exec sys body (initial v₀) (tr ++ [.inv t (.cas false e x)]) ⟨s, Function.update c.threads t (some (.cas false e x, .act .rdPtr fun (p : Nat) => .act (.rd (.user e)) fun (v : SP) =>
        (if p = SP.ptr v then (do swapReg .prm2; unlock; release .prm2; return true)
          else (do copyReg .tmp; swap .tmp (.user e); release .tmp; unlock; release .prm2; return false)) >>= fun b => do
            release .prm; return .flag b))⟩ := by
    refine ⟨_, ?_, e4⟩
    simp [St.set, St.inc, hx]
  obtain ⟨h1, h2, h3, h4, h5⟩ := hs
  have e6 := (e5.goOn (.rdPtr _)).goOn (.rd _ (.user e))
  rw [h2, h4] at e6
  simp only [if_neg hne] at e6
  have e7 := (((e6.goOn (.rdPtr _)).goOn (.rdCtl _)).goOn (.acquire _ .tmp _ _)).goOn (.swap _ .tmp (.user e))
  have e8 := e7.goOn (.release _ .tmp)
  have hmc' : (c.shared.cells t (.user e)).ctl ≠ c.shared.mc := fun h => hmc h.symm
  have hfin : ∀ s' : St, s'.holder = some t → ∀ t' r s'', ¬ sys.step t' .lock s' r s'' := by
    intro s' hs' t' r s'' hd
    cases hd with
    | lock _ hn => rw [hs'] at hn; cases hn
  refine ⟨_, e8, ?_, ?_, hfin _ ?_⟩
  · simp only [St.set, St.dec, St.inc]
    by_cases h0 : c.shared.mc = 0
    · simp [h0, h1, h3, h4, h5, hq, hlast]
    · simp [h0, h1, h3, h4, h5, hq, hlast, hmc']
  · simp only [St.set, St.dec, St.inc]
    by_cases h0 : c.shared.mc = 0 <;> simp [h0, h1, h3, h4, hq]
  · simp only [St.set, St.dec, St.inc]
    by_cases h0 : c.shared.mc = 0 <;> simp [h0, h1, h3, h4, hq]

/-! ### The hypotheses are met -/

/-- a thread makes an object and keeps the only pointer to it, the storage is empty -/
theorem example_exec : ∃ c, Exec sys body (initial null) [.inv 0 (.make 0), .ret 0 (.make 0) (.ptr ⟨5, 7⟩)] c ∧ c.threads 0 = none ∧
    c.shared.holder = none ∧ (c.shared.cells 0 (.user 0)).ctl ≠ 0 ∧ c.shared.count (c.shared.cells 0 (.user 0)).ctl = 1 ∧
    (c.shared.cells 0 (.user 1)).ctl = 0 ∧ c.shared.mp ≠ (c.shared.cells 0 (.user 0)).ptr := by
  have e0 := (Exec.start (sys := sys) (body := body) (c₀ := initial null)).call (t := 0) rfl (.make 0)
  have e1 := e0.goOn (.make _ .res ⟨5, 7⟩ (by decide) (by simp [initial, null]))
  have e2 := ((e1.goOn (.move _ .tmp .res)).goOn (.swap _ .tmp (.user 0))).goOn (.release _ .tmp)
  have e3 := e2.done
  refine ⟨_, e3, ?_⟩
  simp [St.set, St.inc, St.dec, initial, null]

/-- two threads, one loads while the other stores: the load returns the old or the new pointer, never a mixture -/
example (h : Exec sys body (initial ⟨1, 2⟩) tr c) : Linearizable Spec.call ⟨⟨1, 2⟩, fun _ _ => null⟩ tr := C39_linearizable h

end Itlib.ASptr
