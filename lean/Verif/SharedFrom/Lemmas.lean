import Verif.Core.Count
import Verif.SharedFrom.Model

/-! # The counts are right -/
namespace Itlib.SharedFrom

/-- the holders of weak references: weak pointers, and objects whose destructors have not ended -/
def held (s : St) : WLoc ⊕ Nat → Nat
  | .inl l => (s.wp l).ctl
  | .inr q => if q < s.next ∧ s.done q = false then q else 0

structure Inv (addr : Nat → Nat) (s : St) : Prop where
  useX : Exact (fun p => (s.sp p).ctl) s.use
  weakX : Exact (held s) s.weak
  this : ∀ o, s.wp (.this o) = if o ≠ 0 ∧ o < s.next ∧ s.done o = false then ⟨addr o, o⟩ else Ptr.null
  freed : ∀ q, q ≠ 0 → q < s.next → (s.freed q = true ↔ s.weak q = 0)
  lt : ∀ l, (s.sp l).ctl < s.next
  ltw : ∀ w, (s.wp w).ctl < s.next
  alive : ∀ q, q ≠ 0 → s.use q ≠ 0 → s.done q = false
  nodup : s.log.Nodup
  log : ∀ q, q ∈ s.log ↔ q ≠ 0 ∧ q < s.next ∧ s.use q = 0
  pos : s.next ≠ 0

/-- the state has these values in its variables, and right counts -/
structure Good (addr : Nat → Nat) (σ : Loc → Ptr) (ω : WL → Ptr) (dn : Nat → Bool) (n : Nat) (s : St) : Prop where
  sp : s.sp = σ
  wp : ∀ w, s.wp (.user w) = ω w
  done : s.done = dn
  next : s.next = n
  inv : Inv addr s

theorem ctl_update {P : Type} [DecidableEq P] (f : P → Ptr) (d : P) (v : Ptr) :
    (fun p => (Function.update f d v p).ctl) = Function.update (fun p => (f p).ctl) d v.ctl := by
  funext p
  by_cases h : p = d
  · subst h; simp
  · simp [h]

theorem held_update (s s' : St) (d : WLoc) (v : Ptr) (h1 : s'.wp = Function.update s.wp d v) (h2 : s'.next = s.next) (h3 : s'.done = s.done) :
    held s' = Function.update (held s) (.inl d) v.ctl := by
  funext p
  cases p with
  | inl l =>
    by_cases h : l = d
    · subst h; simp [held, h1]
    · simp [held, h1, h]
  | inr q => simp [held, h2, h3]

theorem held_congr (s s' : St) (h1 : s'.wp = s.wp) (h2 : s'.next = s.next) (h3 : s'.done = s.done) : held s' = held s := by
  funext p; cases p <;> simp [held, h1, h2, h3]

theorem weak_congr {s s' : St} {m : Nat → Nat} (h : Exact (held s) m) (h1 : s'.wp = s.wp) (h2 : s'.next = s.next)
    (h3 : s'.done = s.done) : Exact (held s') m := by
  rw [held_congr s s' h1 h2 h3]; exact h

theorem weak_update {s s' : St} {m : Nat → Nat} {d : WLoc} {v : Ptr} (h : Exact (Function.update (held s) (.inl d) v.ctl) m)
    (h1 : s'.wp = Function.update s.wp d v) (h2 : s'.next = s.next) (h3 : s'.done = s.done) : Exact (held s') m := by
  rw [held_update s s' d v h1 h2 h3]; exact h

namespace Inv
variable {addr : Nat → Nat} {s : St}

theorem use_pos (h : Inv addr s) {q : Nat} (hq : q ≠ 0) : s.use q ≠ 0 ↔ ∃ x, (s.sp x).ctl = q := by
  rw [← Nat.pos_iff_ne_zero, h.useX.pos_iff hq]

theorem use_lt (h : Inv addr s) {q : Nat} (hq : q ≠ 0) (hu : s.use q ≠ 0) : q < s.next := by
  obtain ⟨x, hx⟩ := (h.use_pos hq).mp hu
  have := h.lt x
  omega

theorem not_freed (h : Inv addr s) {q : Nat} (hq : q ≠ 0) (p : WLoc ⊕ Nat) (hp : held s p = q) : s.freed q = false := by
  have hw := (h.weakX.pos_iff hq).mpr ⟨p, hp⟩
  have hlt : q < s.next := by
    cases p with
    | inl l => rw [← hp]; exact h.ltw l
    | inr r =>
      simp only [held] at hp
      split_ifs at hp with h1
      · rw [← hp]; exact h1.1
      · exact absurd hp.symm hq
  have := h.freed q hq hlt
  by_contra hf
  rw [Bool.not_eq_false] at hf
  have := this.mp hf
  omega

theorem not_freed_of_exists (h : Inv addr s) {q : Nat} (hq : q ≠ 0) (hlt : q < s.next) (hd : s.done q = false) : s.freed q = false :=
  h.not_freed hq (.inr q) (by simp [held, hlt, hd])

theorem not_freed_of_use (h : Inv addr s) {q : Nat} (hq : q ≠ 0) (hu : s.use q ≠ 0) : s.freed q = false :=
  h.not_freed_of_exists hq (h.use_lt hq hu) (h.alive q hq hu)

end Inv

variable {addr : Nat → Nat} {σ : Loc → Ptr} {ω : WL → Ptr} {dn : Nat → Bool} {n : Nat} {s : St}

theorem acquire_ok (h : Good addr σ ω dn n s) {d : Loc} {p q : Nat} (hd : σ d = Ptr.null) (hq : q = 0 ∨ ∃ x, (σ x).ctl = q) :
    ∃ s', acquire d p q s = .ok () s' ∧ Good addr (Function.update σ d ⟨p, q⟩) ω dn n s' := by
  obtain ⟨rfl, hw, rfl, rfl, i⟩ := h
  have hd0 : (s.sp d).ctl = 0 := by rw [hd]; rfl
  simp only [acquire, hd, ne_eq, not_true_eq_false, if_false]
  by_cases h0 : q = 0
  · subst h0
    rw [if_pos rfl]
    refine ⟨_, rfl, rfl, hw, rfl, rfl, ?_⟩
    refine ⟨?_, ?_, i.this, i.freed, ?_, i.ltw, i.alive, i.nodup, i.log, i.pos⟩
    · simp only [ctl_update]
      rw [← hd0, Function.update_eq_self d (fun p => (s.sp p).ctl)]
      exact i.useX
    · exact weak_congr i.weakX rfl rfl rfl
    · intro l
      by_cases hl : l = d
      · subst hl; simp; exact Nat.pos_of_ne_zero i.pos
      · simpa [hl] using i.lt l
  · have hx := hq.resolve_left h0
    have hu := (i.use_pos h0).mpr hx
    have hf := i.not_freed_of_use h0 hu
    have hlt := i.use_lt h0 hu
    rw [if_neg h0, if_neg (by simp [hu, hf])]
    refine ⟨_, rfl, rfl, hw, rfl, rfl, ?_⟩
    refine ⟨?_, ?_, i.this, i.freed, ?_, i.ltw, ?_, i.nodup, ?_, i.pos⟩
    · simp only [ctl_update]
      exact i.useX.add hd0 h0
    · exact weak_congr i.weakX rfl rfl rfl
    · intro l
      by_cases hl : l = d
      · subst hl; simpa using hlt
      · simpa [hl] using i.lt l
    · intro r hr hu'
      by_cases e : r = q
      · subst e; exact i.alive r hr hu
      · simp [e] at hu'; exact i.alive r hr hu'
    · intro r
      by_cases e : r = q
      · subst e; simp [i.log, hu]
      · simp [e, i.log]

theorem release_ok (h : Good addr σ ω dn n s) (d : Loc) :
    ∃ s', release d s = .ok () s' ∧ Good addr (Function.update σ d Ptr.null) ω dn n s' := by
  obtain ⟨rfl, hw, rfl, rfl, i⟩ := h
  simp only [release]
  by_cases h0 : (s.sp d).ctl = 0
  · rw [if_pos h0]
    refine ⟨_, rfl, rfl, hw, rfl, rfl, ?_⟩
    refine ⟨?_, ?_, i.this, i.freed, ?_, i.ltw, i.alive, i.nodup, i.log, i.pos⟩
    · simp only [ctl_update, Ptr.null]
      rw [← h0, Function.update_eq_self d (fun p => (s.sp p).ctl)]
      exact i.useX
    · exact weak_congr i.weakX rfl rfl rfl
    · intro l
      by_cases hl : l = d
      · subst hl; simp [Ptr.null]; exact Nat.pos_of_ne_zero i.pos
      · simpa [hl] using i.lt l
  · generalize hq : (s.sp d).ctl = q at h0
    have hu := (i.use_pos h0).mpr ⟨d, hq⟩
    have hf := i.not_freed_of_use h0 hu
    have hlt := i.use_lt h0 hu
    rw [if_neg h0, if_neg (by simp [hu, hf])]
    refine ⟨_, rfl, rfl, hw, rfl, rfl, ?_⟩
    refine ⟨?_, ?_, i.this, i.freed, ?_, i.ltw, ?_, ?_, ?_, i.pos⟩
    · simp only [ctl_update, Ptr.null]
      exact i.useX.remove hq h0
    · exact weak_congr i.weakX rfl rfl rfl
    · intro l
      by_cases hl : l = d
      · subst hl; simp [Ptr.null]; exact Nat.pos_of_ne_zero i.pos
      · simpa [hl] using i.lt l
    · intro r hr hu'
      by_cases e : r = q
      · subst e; exact i.alive r hr hu
      · simp [e] at hu'; exact i.alive r hr hu'
    · simp only
      split_ifs
      · have : q ∉ s.log := by rw [i.log]; tauto
        rw [List.nodup_append]
        refine ⟨i.nodup, by simp, ?_⟩
        intro a ha b hb e
        simp only [List.mem_singleton] at hb
        subst hb e
        exact this ha
      · exact i.nodup
    · intro r
      have hm : r ∈ (if s.use q = 1 then s.log ++ [q] else s.log) ↔ r ∈ s.log ∨ (s.use q = 1 ∧ r = q) := by
        split_ifs with h1 <;> simp [h1]
      simp only [hm, i.log]
      by_cases e : r = q
      · subst e
        simp only [Function.update_self, and_true]
        constructor
        · rintro (h | h)
          · exact absurd h.2.2 hu
          · exact ⟨h0, hlt, by omega⟩
        · rintro ⟨-, -, h⟩
          right; omega
      · simp [e]

theorem swap_ok (h : Good addr σ ω dn n s) (a b : Loc) :
    ∃ s', swap a b s = .ok () s' ∧ Good addr (Function.update (Function.update σ a (σ b)) b (σ a)) ω dn n s' := by
  obtain ⟨rfl, hw, rfl, rfl, i⟩ := h
  refine ⟨_, rfl, rfl, hw, rfl, rfl, ?_⟩
  refine ⟨?_, ?_, i.this, i.freed, ?_, i.ltw, i.alive, i.nodup, i.log, i.pos⟩
  · simp only [ctl_update]
    exact i.useX.swap' a b
  · exact weak_congr i.weakX rfl rfl rfl
  · intro l
    by_cases hb : l = b
    · subst hb; simpa using i.lt a
    · by_cases ha : l = a
      · subst ha; simpa [hb] using i.lt b
      · simpa [ha, hb] using i.lt l

theorem useCount_ok (h : Good addr σ ω dn n s) (x : Loc) :
    useCount x s = .ok (if (σ x).ctl = 0 then 0 else s.use (σ x).ctl) s := by
  obtain ⟨rfl, hw, rfl, rfl, i⟩ := h
  simp only [useCount]
  split_ifs with h0 h1
  · rfl
  · rw [i.not_freed_of_use h0 ((i.use_pos h0).mpr ⟨x, rfl⟩)] at h1; exact absurd h1 (by simp)
  · rfl

/-- `decWeak`, after a holder of `q` has gone -/
theorem decWeak_ok {s : St} {q : Nat} (hq : q ≠ 0) (hw : 0 < s.weak q) (hf : s.freed q = false) :
    decWeak q s = .ok () { s with
      weak := Function.update s.weak q (s.weak q - 1), freed := Function.update s.freed q (s.weak q == 1) } := by
  simp only [decWeak, if_neg hq]
  rw [if_neg (by simp [hf]; omega)]

theorem acquireW_ok (h : Good addr σ ω dn n s) {d : WL} {p q : Nat} (hd : ω d = Ptr.null)
    (hq : q = 0 ∨ q < n ∧ s.freed q = false) :
    ∃ s', acquireW d p q s = .ok () s' ∧ Good addr σ (Function.update ω d ⟨p, q⟩) dn n s' := by
  obtain ⟨rfl, hw, rfl, rfl, i⟩ := h
  rw [← hw] at hd
  have hd0 : held s (.inl (.user d)) = 0 := by simp [held, hd, Ptr.null]
  have hwp : ∀ v w, Function.update s.wp (.user d) v (.user w) = Function.update ω d v w := by
    intro v w
    by_cases e : w = d
    · subst e; simp
    · simp [e, hw]
  have hth : ∀ v o, Function.update s.wp (.user d) v (.this o) = s.wp (.this o) := by
    intro v o; simp
  simp only [acquireW, hd, ne_eq, not_true_eq_false, if_false]
  by_cases h0 : q = 0
  · subst h0
    rw [if_pos rfl]
    refine ⟨_, rfl, rfl, hwp _, rfl, rfl, ?_⟩
    refine ⟨i.useX, ?_, ?_, i.freed, i.lt, ?_, i.alive, i.nodup, i.log, i.pos⟩
    · refine weak_update (v := ⟨p, 0⟩) (d := .user d) ?_ rfl rfl rfl
      simp only
      rw [← hd0, Function.update_eq_self]
      exact i.weakX
    · intro o; simp only [hth]; exact i.this o
    · intro l
      by_cases hl : l = .user d
      · subst hl; simp; exact Nat.pos_of_ne_zero i.pos
      · simpa [hl] using i.ltw l
  · obtain ⟨hlt, hf⟩ := hq.resolve_left h0
    rw [if_neg h0, if_neg (by simp [hf])]
    refine ⟨_, rfl, rfl, hwp _, rfl, rfl, ?_⟩
    refine ⟨i.useX, ?_, ?_, ?_, i.lt, ?_, i.alive, i.nodup, i.log, i.pos⟩
    · exact weak_update (i.weakX.add hd0 h0) rfl rfl rfl
    · intro o; simp only [hth]; exact i.this o
    · intro r hr hlt'
      by_cases e : r = q
      · subst e; simp [hf]
      · simpa [e] using i.freed r hr hlt'
    · intro l
      by_cases hl : l = .user d
      · subst hl; simpa using hlt
      · simpa [hl] using i.ltw l

theorem releaseW_ok (h : Good addr σ ω dn n s) (d : WL) :
    ∃ s', releaseW (.user d) s = .ok () s' ∧ Good addr σ (Function.update ω d Ptr.null) dn n s' := by
  obtain ⟨rfl, hw, rfl, rfl, i⟩ := h
  have hwp : ∀ v w, Function.update s.wp (.user d) v (.user w) = Function.update ω d v w := by
    intro v w
    by_cases e : w = d
    · subst e; simp
    · simp [e, hw]
  have hth : ∀ v o, Function.update s.wp (.user d) v (.this o) = s.wp (.this o) := by
    intro v o; simp
  have hlw : ∀ l, (Function.update s.wp (.user d) Ptr.null l).ctl < s.next := by
    intro l
    by_cases hl : l = .user d
    · subst hl; simp [Ptr.null]; exact Nat.pos_of_ne_zero i.pos
    · simpa [hl] using i.ltw l
  simp only [releaseW]
  generalize hq : (s.wp (.user d)).ctl = q
  by_cases h0 : q = 0
  · refine ⟨{ s with wp := Function.update s.wp (.user d) Ptr.null }, by simp [decWeak, h0], rfl, hwp _, rfl, rfl, ?_⟩
    refine ⟨i.useX, ?_, ?_, i.freed, i.lt, hlw, i.alive, i.nodup, i.log, i.pos⟩
    · refine weak_update (v := Ptr.null) (d := .user d) ?_ rfl rfl rfl
      have : held s (.inl (.user d)) = (Ptr.null).ctl := by simp [held, hq, h0, Ptr.null]
      rw [← this, Function.update_eq_self]
      exact i.weakX
    · intro o; simp only [hth]; exact i.this o
  · have hh : held s (.inl (.user d)) = q := by simp [held, hq]
    have hf := i.not_freed h0 _ hh
    have hp := (i.weakX.pos_iff h0).mpr ⟨_, hh⟩
    refine ⟨_, decWeak_ok h0 hp hf, rfl, hwp _, rfl, rfl, ?_⟩
    refine ⟨i.useX, ?_, ?_, ?_, i.lt, hlw, i.alive, i.nodup, i.log, i.pos⟩
    · exact weak_update (v := Ptr.null) (i.weakX.remove hh h0) rfl rfl rfl
    · intro o; simp only [hth]; exact i.this o
    · intro r hr hlt'
      by_cases e : r = q
      · subst e
        simp
        omega
      · simpa [e] using i.freed r hr hlt'

theorem swapW_ok (h : Good addr σ ω dn n s) (a b : WL) :
    ∃ s', swapW a b s = .ok () s' ∧ Good addr σ (Function.update (Function.update ω a (ω b)) b (ω a)) dn n s' := by
  obtain ⟨rfl, hw, rfl, rfl, i⟩ := h
  refine ⟨_, rfl, rfl, ?_, rfl, rfl, ?_⟩
  · intro w
    by_cases hb : w = b
    · subst hb; simp [hw]
    · by_cases ha : w = a
      · subst ha; simp [hb, hw]
      · simp [ha, hb, hw]
  refine ⟨i.useX, ?_, ?_, i.freed, i.lt, ?_, i.alive, i.nodup, i.log, i.pos⟩
  · have : ∀ t : St, t = { s with wp := Function.update (Function.update s.wp (.user a) (s.wp (.user b))) (.user b) (s.wp (.user a)) } →
        held t = Function.update (Function.update (held s) (.inl (.user a)) (held s (.inl (.user b)))) (.inl (.user b)) (held s (.inl (.user a))) := by
      rintro t rfl
      funext p
      cases p with
      | inl l =>
        by_cases hb : l = .user b
        · subst hb; simp [held]
        · by_cases ha : l = .user a
          · subst ha; simp [held, hb]
          · simp [held, ha, hb]
      | inr q => simp [held]
    rw [this _ rfl]
    exact i.weakX.swap' _ _
  · intro o; simpa using i.this o
  · intro l
    by_cases hb : l = .user b
    · subst hb; simpa using i.ltw (.user a)
    · by_cases ha : l = .user a
      · subst ha; simpa [hb] using i.ltw (.user b)
      · simpa [ha, hb] using i.ltw l

open Classical in
theorem lockW_ok (h : Good addr σ ω dn n s) {d : Loc} (hd : σ d = Ptr.null) (w : WL) :
    ∃ s', lockW d (.user w) s = .ok () s' ∧
      Good addr (Function.update σ d (if (ω w).ctl ≠ 0 ∧ ∃ x, (σ x).ctl = (ω w).ctl then ω w else Ptr.null)) ω dn n s' := by
  have i := h.inv
  have hv := h.wp w
  simp only [lockW, hv]
  by_cases h0 : (ω w).ctl = 0
  · simp only [h0, ne_eq, not_true_eq_false, false_and, if_false]
    exact acquire_ok h hd (Or.inl rfl)
  · have hf : s.freed (ω w).ctl = false := i.not_freed h0 (.inl (.user w)) (by simp [held, hv])
    have hu := i.use_pos h0
    rw [h.sp] at hu
    simp only [if_neg h0, hf, Bool.false_eq_true, if_false]
    by_cases hz : s.use (ω w).ctl = 0
    · rw [if_pos hz, if_neg (fun c => hu.mpr c.2 hz)]
      exact acquire_ok h hd (Or.inl rfl)
    · rw [if_neg hz, if_pos ⟨h0, hu.mp hz⟩]
      exact acquire_ok h hd (Or.inr (hu.mp hz))

/-- `fromWeak` of the weak pointer inside of an object that exists and is owned -/
theorem fromWeak_ok (h : Good addr σ ω dn n s) {d : Loc} (hd : σ d = Ptr.null) {o : Nat} (ho : o ≠ 0) (hx : ∃ x, (σ x).ctl = o) :
    ∃ s', fromWeak d (.this o) s = .ok () s' ∧ Good addr (Function.update σ d ⟨addr o, o⟩) ω dn n s' := by
  have i := h.inv
  have hu := (i.use_pos ho).mpr (by rw [h.sp]; exact hx)
  have hth : s.wp (.this o) = ⟨addr o, o⟩ := by rw [i.this, if_pos ⟨ho, i.use_lt ho hu, i.alive o ho hu⟩]
  simp only [fromWeak, hth, if_neg ho, i.not_freed_of_use ho hu, Bool.false_eq_true, if_false, if_neg hu]
  exact acquire_ok h hd (Or.inr hx)

/-- `fromWeak` of the weak pointer inside of an object that is not owned -/
theorem fromWeak_throw (h : Good addr σ ω dn n s) {d : Loc} {o : Nat} (hx : ¬ (o ≠ 0 ∧ ∃ x, (σ x).ctl = o)) :
    fromWeak d (.this o) s = .throw .badWeakPtr s := by
  have i := h.inv
  simp only [fromWeak, i.this]
  by_cases hc : o ≠ 0 ∧ o < s.next ∧ s.done o = false
  · have hu : s.use o = 0 := by
      by_contra hu
      exact hx ⟨hc.1, by rw [← h.sp]; exact (i.use_pos hc.1).mp hu⟩
    simp only [if_pos hc, if_neg hc.1, i.not_freed_of_exists hc.1 hc.2.1 hc.2.2, Bool.false_eq_true, if_false, if_pos hu]
  · simp only [if_neg hc, Ptr.null, if_true]

theorem makeShared_ok (h : Good addr σ ω dn n s) (hd : σ .res = Ptr.null) (a : Nat) :
    ∃ s', makeShared a s = .ok () s' ∧
      Good (Function.update addr n a) (Function.update σ .res ⟨a, n⟩) ω (Function.update dn n false) (n + 1) s' := by
  obtain ⟨rfl, hw, rfl, rfl, i⟩ := h
  have hn := i.pos
  have hu0 : s.use s.next = 0 := by
    rw [i.useX.zero_iff hn]
    intro p e
    have := i.lt p
    omega
  have hhl : ∀ p, held s p ≠ s.next := by
    intro p e
    cases p with
    | inl l => have := i.ltw l; simp only [held] at e; omega
    | inr q => simp only [held] at e; split_ifs at e with hc <;> omega
  have hw0 : s.weak s.next = 0 := by rw [i.weakX.zero_iff hn]; exact hhl
  refine ⟨_, rfl, rfl, ?_, rfl, rfl, ?_⟩
  · intro w; simpa using hw w
  have hd0 : (s.sp .res).ctl = 0 := by rw [hd]; rfl
  refine ⟨?_, ?_, ?_, ?_, ?_, ?_, ?_, i.nodup, ?_, by simp⟩
  · have := i.useX.add hd0 hn
    simp only [ctl_update]
    rw [hu0] at this
    exact this
  · have ht0 : held s (.inl (.this s.next)) = 0 := by
      simp [held, i.this, Ptr.null]
    have hb0 : held s (.inr s.next) = 0 := by simp [held]
    have h1 := i.weakX.add ht0 hn
    have h2 := h1.add (a := .inr s.next) (by simpa using hb0) hn
    simp only [Function.update_self, Function.update_idem, hw0] at h2
    convert h2 using 1
    funext p
    cases p with
    | inl l =>
      by_cases e : l = .this s.next
      · subst e; simp [held]
      · simp [held, e]
    | inr q =>
      by_cases e : q = s.next
      · subst e; simp [held]
      · have : (q < s.next + 1 ∧ s.done q = false) ↔ (q < s.next ∧ s.done q = false) := by
          constructor <;> rintro ⟨h1, h2⟩ <;> exact ⟨by omega, h2⟩
        simp only [held, Function.update_of_ne e, this, Function.update_of_ne (show (Sum.inr q : WLoc ⊕ Nat) ≠ .inr s.next from fun c => e (Sum.inr.inj c)), Function.update_of_ne (show (Sum.inr q : WLoc ⊕ Nat) ≠ .inl (.this s.next) from fun c => by cases c)]
  · intro o
    by_cases e : o = s.next
    · subst e; simp [hn]
    · have : (o ≠ 0 ∧ o < s.next + 1 ∧ s.done o = false) ↔ (o ≠ 0 ∧ o < s.next ∧ s.done o = false) := by
        constructor <;> rintro ⟨h0, h1, h2⟩ <;> exact ⟨h0, by omega, h2⟩
      have he : WLoc.this o ≠ WLoc.this s.next := by intro c; cases c; exact e rfl
      simp only [Function.update_of_ne e, Function.update_of_ne he, i.this, this]
  · intro q hq hlt
    by_cases e : q = s.next
    · subst e; simp
    · simp only at hlt
      simpa [e] using i.freed q hq (by omega)
  · intro l
    have := i.lt l
    by_cases e : l = .res
    · subst e; simp
    · simp [e]; omega
  · intro l
    have := i.ltw l
    by_cases e : l = .this s.next
    · subst e; simp
    · simp [e]; omega
  · intro q hq hu
    by_cases e : q = s.next
    · subst e; simp
    · simp [e] at hu ⊢; exact i.alive q hq hu
  · intro q
    simp only [i.log]
    by_cases e : q = s.next
    · subst e; simp
    · simp only [Function.update_of_ne e]
      constructor <;> rintro ⟨h0, h1, h2⟩ <;> exact ⟨h0, by omega, h2⟩

theorem finish_ok (h : Good addr σ ω dn n s) {q : Nat} (hq : q ≠ 0) (hlt : q < n) (hd : dn q = false) (hu : ¬ ∃ x, (σ x).ctl = q) :
    ∃ s', finish q s = .ok () s' ∧ Good addr σ ω (Function.update dn q true) n s' := by
  obtain ⟨rfl, hw, rfl, rfl, i⟩ := h
  have hu0 : s.use q = 0 := by
    by_contra hc
    exact hu ((i.use_pos hq).mp hc)
  have hth : s.wp (.this q) = ⟨addr q, q⟩ := by rw [i.this, if_pos ⟨hq, hlt, hd⟩]
  have hf := i.not_freed_of_exists hq hlt hd
  have hh1 : held s (.inl (.this q)) = q := by simp [held, hth]
  have hh2 : held s (.inr q) = q := by simp [held, hlt, hd]
  have hx1 := i.weakX.remove hh1 hq
  have hh2' : Function.update (held s) (.inl (.this q)) 0 (.inr q) = q := by simpa using hh2
  have hp2 := (hx1.pos_iff hq).mpr ⟨_, hh2'⟩
  have hx2 := hx1.remove hh2' hq
  simp only [Function.update_self] at hp2
  simp only [Function.update_self, Function.update_idem] at hx2
  have hne : s.weak q ≠ 1 := by omega
  have hlt' : ¬ s.next ≤ q := by omega
  have heq : finish q s = .ok () { s with
      done := Function.update s.done q true
      wp := Function.update s.wp (.this q) Ptr.null
      weak := Function.update s.weak q (s.weak q - 1 - 1)
      freed := Function.update s.freed q (s.weak q - 1 == 1) } := by
    simp only [finish, hq, hlt', hu0, hd, ne_eq, not_true_eq_false, Bool.false_eq_true, or_self, if_false, M.bind_apply, releaseW, hth]
    have hpos : 0 < s.weak q := by omega
    simp [decWeak, hq, hf, hpos.ne', hne]
    omega
  refine ⟨_, heq, rfl, ?_, rfl, rfl, ?_⟩
  · intro w; simpa using hw w
  refine ⟨i.useX, ?_, ?_, ?_, i.lt, ?_, ?_, i.nodup, i.log, i.pos⟩
  · convert hx2 using 1
    funext p
    cases p with
    | inl l =>
      by_cases e : l = .this q
      · subst e; simp [held, Ptr.null]
      · simp [held, e]
    | inr r =>
      by_cases e : r = q
      · subst e; simp [held]
      · simp [held, e]
  · intro o
    by_cases e : o = q
    · subst e; simp
    · have he : WLoc.this o ≠ WLoc.this q := by intro c; cases c; exact e rfl
      simp only [Function.update_of_ne e, Function.update_of_ne he, i.this]
  · intro r hr hlt2
    by_cases e : r = q
    · subst e; simp; omega
    · simpa [e] using i.freed r hr hlt2
  · intro l
    by_cases e : l = .this q
    · subst e; simp [Ptr.null]; exact Nat.pos_of_ne_zero i.pos
    · simpa [e] using i.ltw l
  · intro r hr hur
    by_cases e : r = q
    · subst e; exact absurd hu0 hur
    · simpa [e] using i.alive r hr hur

end Itlib.SharedFrom
