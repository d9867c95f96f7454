import Verif.UFunction.Reentrant
import Verif.UFunction.Props

/-! # Where function objects are -/
namespace Itlib.UFunction
variable {S A R : Type}

/-- The object at the address `a`, which was made earlier, is dead or in `y`. -/
def At (a : Nat) (y : Option Loc) (s : St S) : Prop :=
  a < s.next ∧ (s.obj a = none ∨ ∃ l pl, y = some l ∧ s.fn l = some (.obj pl a))

/-- `f` moves what is in `y` to `y'` or destroys it. -/
def Tr {β : Type} (y y' : Option Loc) (f : M (St S) β) : Prop := ∀ a s r s', At a y s → f s = .ok r s' → At a y' s'

/-- `f` does not touch the variable `z`. -/
def Fr {β : Type} (z : Nat) (f : M (St S) β) : Prop := ∀ s r s', f s = .ok r s' → s'.fn (.var z) = s.fn (.var z)

theorem Tr.bind {β γ : Type} {y y1 y2 : Option Loc} {f : M (St S) β} {g : β → M (St S) γ} (hf : Tr y y1 f) (hg : ∀ r, Tr y1 y2 (g r)) :
    Tr y y2 (f >>= g) := by
  intro a s r s' ha h
  simp only [M.bind_apply] at h
  cases e : f s with
  | ok b s1 => rw [e] at h; exact hg b a s1 r s' (hf a s b s1 ha e) h
  | throw _ _ => rw [e] at h; cases h
  | ub => rw [e] at h; cases h

theorem Fr.bind {β γ : Type} {z : Nat} {f : M (St S) β} {g : β → M (St S) γ} (hf : Fr z f) (hg : ∀ r, Fr z (g r)) : Fr z (f >>= g) := by
  intro s r s' h
  simp only [M.bind_apply] at h
  cases e : f s with
  | ok b s1 => rw [e] at h; rw [hg b s1 r s' h, hf s b s1 e]
  | throw _ _ => rw [e] at h; cases h
  | ub => rw [e] at h; cases h

theorem tr_pure {β : Type} (y : Option Loc) (b : β) : Tr (S := S) y y (pure b) := by
  intro a s r s' ha h
  cases h; exact ha

theorem fr_pure {β : Type} (z : Nat) (b : β) : Fr (S := S) z (pure b) := by
  intro s r s' h
  cases h; rfl

theorem tr_get (y : Option Loc) : Tr (S := S) y y M.get := by
  intro a s r s' ha h
  cases h; exact ha

theorem fr_get (z : Nat) : Fr (S := S) z M.get := by
  intro s r s' h
  cases h; rfl

theorem tr_undef {β : Type} (y y' : Option Loc) : Tr (S := S) (β := β) y y' M.undef := by
  intro a s r s' ha h
  cases h

theorem fr_undef {β : Type} (z : Nat) : Fr (S := S) (β := β) z M.undef := by
  intro s r s' h
  cases h

theorem tr_mkObj (y : Option Loc) (l : Loc) (v : S) : Tr y y (mkObj l v) := by
  intro a s r s' ha h
  simp only [mkObj] at h
  split at h
  · cases h
  · rename_i hl
    simp only [ne_eq, not_not] at hl
    cases h
    refine ⟨Nat.lt_succ_of_lt ha.1, ?_⟩
    have hne : a ≠ s.next := Nat.ne_of_lt ha.1
    rcases ha.2 with h | ⟨k, pl, hy, hk⟩
    · exact .inl (by simp only [Function.update_of_ne hne, h])
    · have : k ≠ l := by rintro rfl; rw [hl] at hk; cases hk
      exact .inr ⟨k, pl, hy, by simp only [Function.update_of_ne this, hk]⟩

theorem fr_mkObj (z : Nat) (l : Loc) (hl : l ≠ .var z) (v : S) : Fr z (mkObj l v) := by
  intro s r s' h
  simp only [mkObj] at h
  split at h
  · cases h
  · cases h
    simp only [Function.update_of_ne hl.symm]

variable (L : Lang S A R) (lib : Lib S) (fails : Nat → Bool)

theorem tr_moveObj (y : Option Loc) (d src : Loc) (pl : Place) : Tr y y (moveObj L d src pl) := by
  intro a s r s' ha h
  simp only [moveObj] at h
  split at h
  · rename_i b hb
    split at h
    · rename_i v hv
      split at h
      · cases h
      · rename_i hl
        simp only [ne_eq, not_not] at hl
        cases h
        refine ⟨Nat.lt_succ_of_lt ha.1, ?_⟩
        have hne : a ≠ s.next := Nat.ne_of_lt ha.1
        rcases ha.2 with h | ⟨k, pl, hy, hk⟩
        · have : a ≠ b := by rintro rfl; rw [h] at hv; cases hv
          exact .inl (by simp only [Function.update_of_ne hne, Function.update_of_ne this, h])
        · have : k ≠ d := by rintro rfl; rw [hl] at hk; cases hk
          exact .inr ⟨k, pl, hy, by simp only [Function.update_of_ne this, hk]⟩
    · cases h
  · cases h

theorem fr_moveObj (z : Nat) (d src : Loc) (hd : d ≠ .var z) (pl : Place) : Fr z (moveObj L d src pl) := by
  intro s r s' h
  simp only [moveObj] at h
  split at h
  · split at h
    · split at h
      · cases h
      · cases h
        simp only [Function.update_of_ne hd.symm]
    · cases h
  · cases h

theorem tr_put (y : Option Loc) (l : Loc) (t : Tgt) : Tr (S := S) y y (put l t) := by
  intro a s r s' ha h
  simp only [put] at h
  split at h
  · cases h
  · rename_i hl
    simp only [ne_eq, not_not] at hl
    cases h
    refine ⟨ha.1, ?_⟩
    rcases ha.2 with h | ⟨k, pl, hy, hk⟩
    · exact .inl h
    · have : k ≠ l := by rintro rfl; rw [hl] at hk; cases hk
      exact .inr ⟨k, pl, hy, by simp only [Function.update_of_ne this, hk]⟩

theorem fr_put (z : Nat) (l : Loc) (hl : l ≠ .var z) (t : Tgt) : Fr (S := S) z (put l t) := by
  intro s r s' h
  simp only [put] at h
  split at h
  · cases h
  · cases h
    simp only [Function.update_of_ne hl.symm]

/-- what is in `l` is destroyed, the rest stays -/
theorem tr_drop (y : Option Loc) (l : Loc) : Tr (S := S) y (if y = some l then none else y) (drop l) := by
  intro a s r s' ha h
  refine ⟨?_, ?_⟩
  · simp only [drop] at h
    split at h
    · cases h
    · cases h; exact ha.1
    · cases h; exact ha.1
    · split at h
      · cases h
      · cases h; exact ha.1
  · rcases ha.2 with hd | ⟨k, pl, hy, hk⟩
    · left
      simp only [drop] at h
      split at h
      · cases h
      · cases h; exact hd
      · cases h; exact hd
      · split at h
        · cases h
        · cases h
          simp only [Function.update_apply]
          split <;> [rfl; exact hd]
    · by_cases hkl : k = l
      · subst hkl
        left
        simp only [drop, hk] at h
        split at h
        · cases h
        · cases h; simp
      · have hne : y ≠ some l := by rw [hy]; simpa using hkl
        rw [if_neg hne]
        right
        refine ⟨k, pl, hy, ?_⟩
        simp only [drop] at h
        split at h
        · cases h
        · cases h; simp only [Function.update_of_ne hkl, hk]
        · cases h; simp only [Function.update_of_ne hkl, hk]
        · split at h
          · cases h
          · cases h; simp only [Function.update_of_ne hkl, hk]

theorem fr_drop (z : Nat) (l : Loc) (hl : l ≠ .var z) : Fr (S := S) z (drop l) := by
  intro s r s' h
  simp only [drop] at h
  split at h
  · cases h
  · cases h; simp only [Function.update_of_ne hl.symm]
  · cases h; simp only [Function.update_of_ne hl.symm]
  · split at h
    · cases h
    · cases h; simp only [Function.update_of_ne hl.symm]

theorem tr_drop_ne {y : Option Loc} {l : Loc} (h : y ≠ some l) : Tr (S := S) y y (drop l) := by
  have := tr_drop (S := S) y l
  rwa [if_neg h] at this

theorem tr_drop_self (l : Loc) : Tr (S := S) (some l) none (drop l) := by
  have := tr_drop (S := S) (some l) l
  rwa [if_pos rfl] at this

/-- dead or elsewhere is weaker than dead -/
theorem Tr.weaken {β : Type} {y y' : Option Loc} {f : M (St S) β} (h : Tr y none f) : Tr y y' f := by
  intro a s r s' ha e
  obtain ⟨h1, h2⟩ := h a s r s' ha e
  refine ⟨h1, h2.imp id ?_⟩
  rintro ⟨l, pl, hn, -⟩
  cases hn

theorem tr_steal {y : Option Loc} {d src : Loc} : Tr (S := S) y (if y = some src then some d else y) (steal L d src) := by
  intro a s r s' ha h
  simp only [steal] at h
  split at h
  · cases h
  · rename_i hsrc
    obtain ⟨h1, h2⟩ := tr_put y d .none a s r s' ha h
    by_cases hy : y = some src
    · refine ⟨h1, .inl ?_⟩
      rcases ha.2 with hd | ⟨k, pl, hk, hk2⟩
      · rcases h2 with h2 | ⟨k, pl, hk, hk2⟩
        · exact h2
        · exfalso
          simp only [put] at h
          split at h
          · cases h
          · cases h
            rw [hy] at hk; cases hk
            simp only [Function.update_apply] at hk2
            split at hk2 <;> [cases hk2; (rw [hsrc] at hk2; cases hk2)]
      · rw [hy] at hk; cases hk; rw [hsrc] at hk2; cases hk2
    · rw [if_neg hy]; exact ⟨h1, h2⟩
  · rename_i p hsrc
    have h2 := (Tr.bind (tr_put y d (.ptr p)) fun _ => (tr_drop y src).bind fun _ => tr_put _ src .none) a s r s' ha h
    by_cases hy : y = some src
    · rw [if_pos hy] at h2
      exact ⟨h2.1, .inl (by rcases h2.2 with h | ⟨l, pl, hn, -⟩; exact h; cases hn)⟩
    · rw [if_neg hy] at h2 ⊢; exact h2
  · rename_i b hsrc
    split at h
    · cases h
    · rename_i hds
      simp only [not_or, ne_eq, not_not] at hds
      cases h
      refine ⟨ha.1, ?_⟩
      rcases ha.2 with hd | ⟨k, pl, hk, hk2⟩
      · exact .inl hd
      · right
        by_cases hks : k = src
        · subst hks
          rw [hsrc] at hk2
          cases hk2
          rw [if_pos hk]
          exact ⟨d, .heap, rfl, by simp only [Function.update_of_ne hds.2, Function.update_self]⟩
        · have hkd : k ≠ d := by rintro rfl; rw [hds.1] at hk2; cases hk2
          have : y ≠ some src := by rw [hk]; simpa using hks
          rw [if_neg this]
          exact ⟨k, pl, hk, by simp only [Function.update_of_ne hks, Function.update_of_ne hkd, hk2]⟩
  · rename_i b hsrc
    have h2 := (Tr.bind (tr_moveObj L y d src .inlineMoved) fun _ => (tr_drop y src).bind fun _ => tr_put _ src .none) a s r s' ha h
    by_cases hy : y = some src
    · rw [if_pos hy] at h2
      exact ⟨h2.1, .inl (by rcases h2.2 with h | ⟨l, pl, hn, -⟩; exact h; cases hn)⟩
    · rw [if_neg hy] at h2 ⊢; exact h2
  · simp only [copyObj] at h
    split at h
    · split at h <;> cases h
    · cases h

theorem fr_steal (z : Nat) {d src : Loc} (hd : d ≠ .var z) (hs : src ≠ .var z) : Fr z (steal L d src) := by
  intro s r s' h
  simp only [steal] at h
  split at h
  · cases h
  · exact fr_put z d hd .none s r s' h
  · exact ((fr_put z d hd _).bind fun _ => (fr_drop z src hs).bind fun _ => fr_put z src hs .none) s r s' h
  · split at h
    · cases h
    · cases h
      simp only [Function.update_of_ne hd.symm, Function.update_of_ne hs.symm]
  · exact ((fr_moveObj L z d src hd _).bind fun _ => (fr_drop z src hs).bind fun _ => fr_put z src hs .none) s r s' h
  · simp only [copyObj] at h
    split at h
    · split at h <;> cases h
    · cases h

theorem tr_steal_ne {y : Option Loc} {d src : Loc} (h : y ≠ some src) : Tr (S := S) y y (steal L d src) := by
  have := tr_steal (S := S) L (y := y) (d := d) (src := src)
  rwa [if_neg h] at this

theorem tr_steal_self {d src : Loc} : Tr (S := S) (some src) (some d) (steal L d src) := by
  have := tr_steal (S := S) L (y := some src) (d := d) (src := src)
  rwa [if_pos rfl] at this

theorem tr_swap_second {a b : Loc} (ha : a ≠ b) (h1 : a ≠ .tmp2) : Tr (some b) (some a) (swap L a b) :=
  (tr_steal_ne L (by simpa using ha.symm)).bind fun _ => (tr_drop_ne (by simpa using ha.symm)).bind fun _ => (tr_steal_self L).bind fun _ =>
    (tr_drop_ne (by simpa using ha)).bind fun _ => (tr_steal_ne L (by simpa using h1)).bind fun _ => tr_drop_ne (by simpa using h1)

theorem tr_swap_ne {y : Option Loc} {a b : Loc} (ha : y ≠ some a) (hb : y ≠ some b) (h : y ≠ some .tmp2) : Tr y y (swap L a b) :=
  (tr_steal_ne L ha).bind fun _ => (tr_drop_ne ha).bind fun _ => (tr_steal_ne L hb).bind fun _ =>
    (tr_drop_ne hb).bind fun _ => (tr_steal_ne L h).bind fun _ => tr_drop_ne h

theorem fr_swap (z : Nat) {a b : Loc} (ha : a ≠ .var z) (hb : b ≠ .var z) : Fr z (swap L a b) :=
  have h : Loc.tmp2 ≠ .var z := by simp
  (fr_steal L z h ha).bind fun _ => (fr_drop z a ha).bind fun _ => (fr_steal L z ha hb).bind fun _ => (fr_drop z b hb).bind fun _ =>
    (fr_steal L z hb h).bind fun _ => fr_drop z _ h

theorem tr_alloc (y : Option Loc) : Tr (S := S) y y (alloc fails) := by
  intro a s r s' ha h
  simp only [alloc] at h
  split at h
  · cases h
  · cases h; exact ha

theorem fr_alloc (z : Nat) : Fr (S := S) z (alloc fails) := by
  intro s r s' h
  simp only [alloc] at h
  split at h
  · cases h
  · cases h; rfl

theorem tr_fromWrapper {y : Option Loc} (h : y ≠ some .arg) (d : Loc) : Tr y y (fromWrapper L lib fails d) := by
  have key : ∀ src, Tr y y (do
      let s ← M.get
      match s.fn src with
      | some (.obj _ a) =>
        match s.obj a with
        | some v => do
          let pl := lib.place v copyNoexcept moveNoexcept
          if pl = .heap then alloc fails
          moveObj L d src pl
        | none => M.undef
      | _ => M.undef
      if lib.byValue then drop .arg : M (St S) Unit) := by
    intro src
    refine (tr_get y).bind fun s => ?_
    split <;> split
    · split
      · dsimp only
        split
        · exact (tr_alloc fails y).bind fun _ => (tr_moveObj L y d src _).bind fun _ => tr_drop_ne h
        · exact (tr_moveObj L y d src _).bind fun _ => tr_drop_ne h
      · exact (tr_undef y y).bind fun _ => tr_drop_ne h
    · exact (tr_undef y y).bind fun _ => tr_drop_ne h
    · split
      · dsimp only
        split
        · exact (tr_alloc fails y).bind fun _ => (tr_moveObj L y d src _).bind fun _ => tr_pure y _
        · exact (tr_moveObj L y d src _).bind fun _ => tr_pure y _
      · exact (tr_undef y y).bind fun _ => tr_pure y _
    · exact (tr_undef y y).bind fun _ => tr_pure y _
  unfold fromWrapper
  refine Tr.bind (y1 := y) ?_ key
  split
  · exact (tr_moveObj L y _ _ _).bind fun _ => tr_pure y _
  · exact tr_pure y _

theorem fr_fromWrapper (z : Nat) {d : Loc} (hd : d ≠ .var z) : Fr z (fromWrapper L lib fails d) := by
  have key : ∀ src, Fr z (do
      let s ← M.get
      match s.fn src with
      | some (.obj _ a) =>
        match s.obj a with
        | some v => do
          let pl := lib.place v copyNoexcept moveNoexcept
          if pl = .heap then alloc fails
          moveObj L d src pl
        | none => M.undef
      | _ => M.undef
      if lib.byValue then drop .arg : M (St S) Unit) := by
    intro src
    refine (fr_get z).bind fun s => ?_
    split <;> split
    · split
      · dsimp only
        split
        · exact (fr_alloc fails z).bind fun _ => (fr_moveObj L z d src hd _).bind fun _ => fr_drop z _ (by simp)
        · exact (fr_moveObj L z d src hd _).bind fun _ => fr_drop z _ (by simp)
      · exact (fr_undef z).bind fun _ => fr_drop z _ (by simp)
    · exact (fr_undef z).bind fun _ => fr_drop z _ (by simp)
    · split
      · dsimp only
        split
        · exact (fr_alloc fails z).bind fun _ => (fr_moveObj L z d src hd _).bind fun _ => fr_pure z _
        · exact (fr_moveObj L z d src hd _).bind fun _ => fr_pure z _
      · exact (fr_undef z).bind fun _ => fr_pure z _
    · exact (fr_undef z).bind fun _ => fr_pure z _
  unfold fromWrapper
  refine Fr.bind ?_ key
  split
  · exact (fr_moveObj L z _ _ (by simp) _).bind fun _ => fr_pure z _
  · exact fr_pure z _

theorem tr_passArg (y : Option Loc) (src : Src) : Tr y y (passArg L src) := by
  cases src with
  | null => exact tr_pure y _
  | ptr p => exact tr_pure y _
  | byCopy u => exact (tr_get y).bind fun _ => tr_mkObj y _ _
  | byMove u =>
    refine (tr_get y).bind fun _ => (tr_mkObj y _ _).bind fun _ => ?_
    intro a s r s' ha h
    cases h; exact ha

theorem fr_passArg (z : Nat) (src : Src) : Fr z (passArg L src) := by
  cases src with
  | null => exact fr_pure z _
  | ptr p => exact fr_pure z _
  | byCopy u => exact (fr_get z).bind fun _ => fr_mkObj z _ (by simp) _
  | byMove u =>
    refine (fr_get z).bind fun _ => (fr_mkObj z _ (by simp) _).bind fun _ => ?_
    intro s r s' h
    cases h; rfl

theorem tr_construct (d : Loc) (src : Src) : Tr none none (construct L lib fails d src) := by
  have ho : Tr none none (do
      moveObj L .wrap .param .inlineMoved
      fromWrapper L lib fails d
      drop .wrap
      drop .param) :=
    (tr_moveObj L none _ _ _).bind fun _ => (tr_fromWrapper L lib fails (by simp) d).bind fun _ => (tr_drop_ne (by simp)).bind fun _ => tr_drop_ne (by simp)
  cases src with
  | null => exact tr_put none d _
  | ptr p => cases p <;> exact tr_put none d _
  | byMove u => exact ho
  | byCopy u => exact ho

theorem fr_construct (z : Nat) {d : Loc} (hd : d ≠ .var z) (src : Src) : Fr z (construct L lib fails d src) := by
  have ho : Fr z (do
      moveObj L .wrap .param .inlineMoved
      fromWrapper L lib fails d
      drop .wrap
      drop .param) :=
    (fr_moveObj L z _ _ (by simp) _).bind fun _ => (fr_fromWrapper L lib fails z hd).bind fun _ => (fr_drop z _ (by simp)).bind fun _ => fr_drop z _ (by simp)
  cases src with
  | null => exact fr_put z d hd _
  | ptr p => cases p <;> exact fr_put z d hd _
  | byMove u => exact ho
  | byCopy u => exact ho

/-- assignment destroys what was there -/
theorem tr_assignFrom (x : Nat) (src : Src) : Tr (some (.var x)) none (assignFrom L lib fails (.var x) src) := by
  have ho : Tr (some (.var x)) none (do
      moveObj L .wrap .param .inlineMoved
      fromWrapper L lib fails .tmp
      swap L .tmp (.var x)
      drop .tmp
      drop .wrap
      drop .param) :=
    (tr_moveObj L _ _ _ _).bind fun _ => (tr_fromWrapper L lib fails (by simp) _).bind fun _ =>
      (tr_swap_second L (by simp) (by simp)).bind fun _ => (tr_drop_self _).bind fun _ => (tr_drop_ne (by simp)).bind fun _ => tr_drop_ne (by simp)
  cases src with
  | null => exact (tr_drop_self _).bind fun _ => tr_put none _ _
  | ptr p => exact (tr_put _ _ _).bind fun _ => (tr_swap_second L (by simp) (by simp)).bind fun _ => tr_drop_self _
  | byMove u => exact ho
  | byCopy u => exact ho

theorem At.none_some {a : Nat} {y : Option Loc} {s : St S} (h : At a none s) : At a y s :=
  ⟨h.1, h.2.imp id (by rintro ⟨l, pl, hn, -⟩; cases hn)⟩

theorem Tr.dead {β : Type} {y : Option Loc} {f : M (St S) β} (h : Tr y none f) : Tr none none f :=
  fun a s r s' ha e => h a s r s' ha.none_some e

theorem fr_assignFrom (z : Nat) {x : Loc} (hx : x ≠ .var z) (src : Src) : Fr z (assignFrom L lib fails x src) := by
  have ho : Fr z (do
      moveObj L .wrap .param .inlineMoved
      fromWrapper L lib fails .tmp
      swap L .tmp x
      drop .tmp
      drop .wrap
      drop .param) :=
    (fr_moveObj L z _ _ (by simp) _).bind fun _ => (fr_fromWrapper L lib fails z (by simp)).bind fun _ =>
      (fr_swap L z (by simp) hx).bind fun _ => (fr_drop z _ (by simp)).bind fun _ => (fr_drop z _ (by simp)).bind fun _ => fr_drop z _ (by simp)
  cases src with
  | null => exact (fr_drop z _ hx).bind fun _ => fr_put z _ hx _
  | ptr p => exact (fr_put z _ (by simp) _).bind fun _ => (fr_swap L z (by simp) hx).bind fun _ => fr_drop z _ (by simp)
  | byMove u => exact ho
  | byCopy u => exact ho

/-- move assignment destroys what was there -/
theorem tr_moveAssign {d x : Loc} (hd : d ≠ x) (h1 : d ≠ .tmp) : Tr (some d) none (moveAssign L lib d x) := by
  unfold moveAssign
  split
  · refine (tr_drop_self _).bind fun _ => (tr_put none _ _).bind fun _ => ?_
    exact (tr_drop_ne (by simp)).bind fun _ => tr_steal_ne L (by simp)
  · exact (tr_steal_ne L (by simpa using hd)).bind fun _ => (tr_swap_second L h1.symm (by simp)).bind fun _ => tr_drop_self _

theorem tr_moveAssign_dead {d x : Loc} : Tr none none (moveAssign L lib d x) := by
  unfold moveAssign
  split
  · refine (tr_drop_ne (by simp)).bind fun _ => (tr_put none _ _).bind fun _ => ?_
    split
    · exact tr_pure _ _
    · exact (tr_drop_ne (by simp)).bind fun _ => tr_steal_ne L (by simp)
  · exact (tr_steal_ne L (by simp)).bind fun _ => (tr_swap_ne L (by simp) (by simp) (by simp)).bind fun _ => tr_drop_ne (by simp)

theorem fr_moveAssign (z : Nat) {d x : Loc} (hd : d ≠ .var z) (hx : x ≠ .var z) : Fr z (moveAssign L lib d x) := by
  unfold moveAssign
  split
  · refine (fr_drop z _ hd).bind fun _ => (fr_put z _ hd _).bind fun _ => ?_
    split
    · exact fr_pure _ _
    · exact (fr_drop z _ hd).bind fun _ => fr_steal L z hd hx
  · exact (fr_steal L z (by simp) hx).bind fun _ => (fr_swap L z (by simp) hd).bind fun _ => fr_drop z _ (by simp)

theorem noexcept_inv {m : M (St S) Unit} {s s' : St S} {r : Reply R} (h : noexcept_ m s = .ok r s') (hr : r ≠ .terminated) : m s = .ok () s' := by
  simp only [noexcept_] at h
  split at h
  · rename_i e; cases h; exact e
  · cases h; exact absurd rfl hr
  · cases h

/-- the variables that a call changes -/
def Op.vars : Op A → List Nat
  | .default x | .create x _ | .assign x _ | .destroy x => [x]
  | .moveNew d x | .moveAssign d x => [d, x]
  | .call _ _ | .test _ => []

/-- the variables of which a call destroys the target -/
def Op.kills : Op A → List Nat
  | .assign x _ | .destroy x => [x]
  | .moveAssign d x => if d = x then [] else [d]
  | _ => []

def Op.isCall : Op A → Bool
  | .call _ _ => true
  | _ => false

/-- a call that does not run a callable, and goes well -/
theorem exec_tr {op : Op A} (hc : op.isCall = false) {y y' : Option Loc} (hy : (y = none ∧ y' = none) ∨ (y' = none ∧ ∃ x ∈ op.kills, y = some (.var x)))
    {a : Nat} {s s' : St S} {r : Reply R} (ha : At a y s) (h : exec L lib fails op s = .ok r s') (hr : r ≠ .terminated) : At a y' s' := by
  cases op with
  | call x b => cases hc
  | default x =>
    rcases hy with ⟨rfl, rfl⟩ | ⟨-, z, hz, -⟩
    · exact ((tr_put _ _ _).bind fun _ => tr_pure _ _) a s r s' ha h
    · simp [Op.kills] at hz
  | create x src =>
    rcases hy with ⟨rfl, rfl⟩ | ⟨-, z, hz, -⟩
    · simp only [exec, M.bind_apply] at h
      cases e : passArg L src s with
      | ok u s1 =>
        rw [e] at h
        exact tr_construct L lib fails _ _ a s1 () s' (tr_passArg L _ src a s u s1 ha e) (noexcept_inv h hr)
      | throw _ _ => rw [e] at h; cases h
      | ub => rw [e] at h; cases h
    · simp [Op.kills] at hz
  | assign x src =>
    simp only [exec, M.bind_apply, M.get] at h
    split at h
    · cases h
    · have key : ∀ y, (y = none ∨ y = some (.var x)) → At a y s → At a none s' := by
        intro y hy ha
        simp only [M.bind_apply] at h
        cases e : passArg L src s with
        | ok u s1 =>
          rw [e] at h
          refine tr_assignFrom L lib fails x src a s1 () s' ?_ (noexcept_inv h hr)
          have := tr_passArg L _ src a s u s1 ha e
          rcases hy with rfl | rfl
          · exact this.none_some
          · exact this
        | throw _ _ => rw [e] at h; cases h
        | ub => rw [e] at h; cases h
      rcases hy with ⟨rfl, rfl⟩ | ⟨rfl, z, hz, rfl⟩
      · exact key none (.inl rfl) ha
      · simp only [Op.kills, List.mem_singleton] at hz
        subst hz
        exact key _ (.inr rfl) ha
  | moveNew d x =>
    rcases hy with ⟨rfl, rfl⟩ | ⟨-, z, hz, -⟩
    · exact tr_steal_ne L (by simp) a s () s' ha (noexcept_inv h hr)
    · simp [Op.kills] at hz
  | moveAssign d x =>
    rcases hy with ⟨rfl, rfl⟩ | ⟨rfl, z, hz, rfl⟩
    · exact tr_moveAssign_dead L lib a s () s' ha (noexcept_inv h hr)
    · simp only [Op.kills] at hz
      split at hz
      · cases hz
      · rename_i hdx
        simp only [List.mem_singleton] at hz
        subst hz
        exact tr_moveAssign L lib (by simpa using hdx) (by simp) a s () s' ha (noexcept_inv h hr)
  | test x =>
    rcases hy with ⟨rfl, rfl⟩ | ⟨-, z, hz, -⟩
    · simp only [exec, M.bind_apply, test] at h
      cases e : s.fn (.var x) with
      | none => rw [e] at h; cases h
      | some t => rw [e] at h; cases h; exact ha
    · simp [Op.kills] at hz
  | destroy x =>
    rcases hy with ⟨rfl, rfl⟩ | ⟨rfl, z, hz, rfl⟩
    · exact ((tr_drop_ne (by simp)).bind fun _ => tr_pure _ _) a s r s' ha h
    · simp only [Op.kills, List.mem_singleton] at hz
      subst hz
      exact ((tr_drop_self _).bind fun _ => tr_pure _ _) a s r s' ha h

theorem exec_fr {op : Op A} (hc : op.isCall = false) {z : Nat} (hz : z ∉ op.vars) {s s' : St S} {r : Reply R}
    (h : exec L lib fails op s = .ok r s') (hr : r ≠ .terminated) : s'.fn (.var z) = s.fn (.var z) := by
  have hv : ∀ x, z ≠ x → Loc.var x ≠ .var z := fun x h e => h (by cases e; rfl)
  cases op with
  | call x b => cases hc
  | default x =>
    simp only [Op.vars, List.mem_singleton] at hz
    exact ((fr_put z _ (hv _ hz) _).bind fun _ => fr_pure _ _) s r s' h
  | create x src =>
    simp only [Op.vars, List.mem_singleton] at hz
    simp only [exec, M.bind_apply] at h
    cases e : passArg L src s with
    | ok u s1 =>
      rw [e] at h
      rw [fr_construct L lib fails z (hv _ hz) src s1 () s' (noexcept_inv h hr), fr_passArg L z src s u s1 e]
    | throw _ _ => rw [e] at h; cases h
    | ub => rw [e] at h; cases h
  | assign x src =>
    simp only [Op.vars, List.mem_singleton] at hz
    simp only [exec, M.bind_apply, M.get] at h
    split at h
    · cases h
    · simp only [M.bind_apply] at h
      cases e : passArg L src s with
      | ok u s1 =>
        rw [e] at h
        rw [fr_assignFrom L lib fails z (hv _ hz) src s1 () s' (noexcept_inv h hr), fr_passArg L z src s u s1 e]
      | throw _ _ => rw [e] at h; cases h
      | ub => rw [e] at h; cases h
  | moveNew d x =>
    simp only [Op.vars, List.mem_cons, List.not_mem_nil, or_false, not_or] at hz
    exact fr_steal L z (hv _ hz.1) (hv _ hz.2) s () s' (noexcept_inv h hr)
  | moveAssign d x =>
    simp only [Op.vars, List.mem_cons, List.not_mem_nil, or_false, not_or] at hz
    exact fr_moveAssign L lib z (hv _ hz.1) (hv _ hz.2) s () s' (noexcept_inv h hr)
  | test x =>
    simp only [exec, M.bind_apply, test] at h
    cases e : s.fn (.var x) with
    | none => rw [e] at h; cases h
    | some t => rw [e] at h; cases h; rfl
  | destroy x =>
    simp only [Op.vars, List.mem_singleton] at hz
    exact ((fr_drop z _ (hv _ hz)).bind fun _ => fr_pure _ _) s r s' h

end Itlib.UFunction
