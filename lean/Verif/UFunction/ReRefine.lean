import Verif.UFunction.ReLemmas

/-! # Function objects with identities, and function objects in memory -/
namespace Itlib.UFunction
variable {S A R : Type}

namespace Spec

/-- The function objects that are alive are those that `ufunction`s have. -/
structure RSys.WF (y : RSys S) : Prop where
  alive : ∀ x i, y.fn x = some (some (.obj i)) → ∃ v, y.st i = .alive v
  held : ∀ i v, y.st i = .alive v → ∃ x, y.fn x = some (some (.obj i))
  uniq : ∀ x x' i, y.fn x = some (some (.obj i)) → y.fn x' = some (some (.obj i)) → x = x'
  unborn : ∀ i, y.next ≤ i → y.st i = .unborn

theorem RSys.content_congr {y y' : RSys S} {x : Nat} (hf : y'.fn x = y.fn x) (hs : ∀ i, y.fn x = some (some (.obj i)) → y'.st i = y.st i) :
    y'.content x = y.content x := by
  simp only [content, hf]
  rcases h : y.fn x with _ | _ | _ | i
  · rfl
  · rfl
  · rfl
  · simp only [hs i h]

theorem RSys.content_none (y : RSys S) (x : Nat) : y.content x = none ↔ y.fn x = none := by
  simp only [content]
  rcases h : y.fn x with _ | _ | _ | i
  · simp
  · simp
  · simp
  · cases hs : y.st i <;> simp [hs]

theorem RSys.WF.lt {y : RSys S} (h : y.WF) {i x : Nat} (hx : y.fn x = some (some (.obj i))) : i < y.next := by
  by_contra hn
  obtain ⟨v, hv⟩ := h.alive x i hx
  rw [h.unborn i (by omega)] at hv
  cases hv

theorem RSys.WF.hold {y : RSys S} (h : y.WF) {x : Nat} (hx : ∀ i, y.fn x ≠ some (some (.obj i))) (c : Option (Callee S)) : (y.hold x c).WF := by
  rcases c with _ | p | v
  · refine ⟨?_, ?_, ?_, h.unborn⟩
    · intro z i hz
      simp only [RSys.hold, Function.update_apply] at hz
      split at hz
      · cases hz
      · exact h.alive z i hz
    · intro i w hw
      obtain ⟨z, hz⟩ := h.held i w hw
      have : z ≠ x := by rintro rfl; exact hx _ hz
      exact ⟨z, by simp only [RSys.hold, Function.update_of_ne this, hz]⟩
    · intro z z' i hz hz'
      simp only [RSys.hold, Function.update_apply] at hz hz'
      split at hz <;> split at hz' <;> first | cases hz | cases hz' | skip
      exact h.uniq z z' i hz hz'
  · refine ⟨?_, ?_, ?_, h.unborn⟩
    · intro z i hz
      simp only [RSys.hold, Function.update_apply] at hz
      split at hz
      · cases hz
      · exact h.alive z i hz
    · intro i w hw
      obtain ⟨z, hz⟩ := h.held i w hw
      have : z ≠ x := by rintro rfl; exact hx _ hz
      exact ⟨z, by simp only [RSys.hold, Function.update_of_ne this, hz]⟩
    · intro z z' i hz hz'
      simp only [RSys.hold, Function.update_apply] at hz hz'
      split at hz <;> split at hz' <;> first | cases hz | cases hz' | skip
      exact h.uniq z z' i hz hz'
  · refine ⟨?_, ?_, ?_, ?_⟩
    · intro z i hz
      simp only [RSys.hold, Function.update_apply] at hz ⊢
      split at hz
      · cases hz
        exact ⟨v, by simp⟩
      · have := h.lt hz
        obtain ⟨w, hw⟩ := h.alive z i hz
        exact ⟨w, by rw [if_neg (by omega), hw]⟩
    · intro i w hw
      simp only [RSys.hold, Function.update_apply] at hw ⊢
      split at hw
      · rename_i e
        exact ⟨x, by simp [e]⟩
      · obtain ⟨z, hz⟩ := h.held i w hw
        have : z ≠ x := by rintro rfl; exact hx _ hz
        exact ⟨z, by rw [if_neg this, hz]⟩
    · intro z z' i hz hz'
      simp only [RSys.hold, Function.update_apply] at hz hz'
      split at hz <;> split at hz'
      · rename_i e e'; rw [e, e']
      · cases hz
        exact absurd (h.lt hz') (Nat.lt_irrefl _)
      · cases hz'
        exact absurd (h.lt hz) (Nat.lt_irrefl _)
      · exact h.uniq z z' i hz hz'
    · intro i hi
      simp only [RSys.hold] at hi ⊢
      rw [Function.update_of_ne (by omega)]
      exact h.unborn i (by omega)

theorem RSys.WF.content_hold {y : RSys S} (h : y.WF) (x : Nat) (c : Option (Callee S)) :
    (y.hold x c).content = Function.update y.content x (some c) := by
  funext z
  by_cases e : z = x
  · subst e
    rcases c with _ | p | v <;> simp [RSys.content, RSys.hold]
  · rw [Function.update_of_ne e]
    apply RSys.content_congr
    · rcases c with _ | p | v <;> simp [RSys.hold, e]
    · intro i hi
      have := h.lt hi
      rcases c with _ | p | v
      · rfl
      · rfl
      · simp only [RSys.hold]
        rw [Function.update_of_ne (by omega)]

theorem RSys.lose_fn (y : RSys S) (x : Nat) (how : Life S) : (y.lose x how).fn = Function.update y.fn x (some none) := by
  simp only [RSys.lose]
  split <;> rfl

theorem RSys.lose_next (y : RSys S) (x : Nat) (how : Life S) : (y.lose x how).next = y.next := by
  simp only [RSys.lose]
  split <;> rfl

theorem RSys.lose_usr (y : RSys S) (x : Nat) (how : Life S) : (y.lose x how).usr = y.usr := by
  simp only [RSys.lose]
  split <;> rfl

theorem RSys.lose_st (y : RSys S) (x : Nat) (how : Life S) (i : Nat) (hi : y.fn x ≠ some (some (.obj i))) : (y.lose x how).st i = y.st i := by
  simp only [RSys.lose]
  split
  · rename_i j hj
    have : i ≠ j := by rintro rfl; exact hi hj
    simp only [Function.update_of_ne this]
  · rfl

theorem RSys.lose_st_self (y : RSys S) (x : Nat) (how : Life S) (i : Nat) (hi : y.fn x = some (some (.obj i))) : (y.lose x how).st i = how := by
  simp only [RSys.lose, hi, Function.update_self]

theorem RSys.WF.lose {y : RSys S} (h : y.WF) (x : Nat) {how : Life S} (hh : ∀ v, how ≠ .alive v) : (y.lose x how).WF := by
  refine ⟨?_, ?_, ?_, ?_⟩
  · intro z i hz
    rw [RSys.lose_fn, Function.update_apply] at hz
    split at hz
    · cases hz
    · rename_i e
      rw [RSys.lose_st _ _ _ _ (fun hx => e (h.uniq _ _ _ hz hx))]
      exact h.alive z i hz
  · intro i w hw
    by_cases hx : y.fn x = some (some (.obj i))
    · rw [RSys.lose_st_self _ _ _ _ hx] at hw
      exact absurd hw (hh w)
    · rw [RSys.lose_st _ _ _ _ hx] at hw
      obtain ⟨z, hz⟩ := h.held i w hw
      have : z ≠ x := by rintro rfl; exact hx hz
      exact ⟨z, by rw [RSys.lose_fn, Function.update_of_ne this, hz]⟩
  · intro z z' i hz hz'
    rw [RSys.lose_fn, Function.update_apply] at hz hz'
    split at hz <;> split at hz' <;> first | cases hz | cases hz' | skip
    exact h.uniq z z' i hz hz'
  · intro i hi
    rw [RSys.lose_next] at hi
    rw [RSys.lose_st _ _ _ _ (fun hx => by have := h.lt hx; omega)]
    exact h.unborn i hi

theorem RSys.WF.content_lose {y : RSys S} (h : y.WF) (x : Nat) (how : Life S) :
    (y.lose x how).content = Function.update y.content x (some none) := by
  funext z
  by_cases e : z = x
  · subst e
    rw [Function.update_self]
    simp only [RSys.content, RSys.lose_fn, Function.update_self]
  · rw [Function.update_of_ne e]
    apply RSys.content_congr
    · rw [RSys.lose_fn, Function.update_of_ne e]
    · intro i hi
      exact RSys.lose_st _ _ _ _ (fun hx => e (h.uniq _ _ _ hi hx))

theorem RSys.WF.give {y : RSys S} (h : y.WF) (mv : S → S) (src : Src) : (y.give mv src).WF := by
  cases src <;> exact ⟨h.alive, h.held, h.uniq, h.unborn⟩

theorem RSys.give_fn (mv : S → S) (y : RSys S) (src : Src) : (y.give mv src).fn = y.fn := by cases src <;> rfl
theorem RSys.give_st (mv : S → S) (y : RSys S) (src : Src) : (y.give mv src).st = y.st := by cases src <;> rfl
theorem RSys.give_next (mv : S → S) (y : RSys S) (src : Src) : (y.give mv src).next = y.next := by cases src <;> rfl
theorem RSys.give_content (mv : S → S) (y : RSys S) (src : Src) : (y.give mv src).content = y.content := by cases src <;> rfl

theorem RSys.hold_usr (y : RSys S) (x : Nat) (c : Option (Callee S)) : (y.hold x c).usr = y.usr := by rcases c with _ | _ | _ <;> rfl

/-- without the identities -/
def RSys.erase (y : RSys S) : Sys S := ⟨y.content, y.usr⟩

theorem RSys.erase_mk (y : RSys S) : y.erase = ⟨y.content, y.usr⟩ := rfl

/-- the values are those of the specification of C50 -/
theorem rstep_erase (L : RLang S A R) (sc : Bool) {y y' : RSys S} (h : y.WF) {op : Op A} {r : Reply R} (hs : rstep L.mv sc y op = some (r, y')) :
    y'.WF ∧ ∃ r0, step L.base sc y.erase op = some (r0, y'.erase) ∧ r0.ofBase = r := by
  have hnone : ∀ x, y.erase.fn x = none ↔ y.fn x = none := y.content_none
  have hval : ∀ src, value y.erase src = y.value src := by intro src; cases src <;> rfl
  have hgiv : ∀ src, given L.base y.erase src = (y.give L.mv src).usr := by intro src; cases src <;> rfl
  cases op with
  | call x a => simp [rstep] at hs
  | default x =>
    simp only [rstep, Option.ite_none_right_eq_some, Option.some.injEq, Prod.mk.injEq] at hs
    obtain ⟨h1, rfl, rfl⟩ := hs
    refine ⟨h.hold (by simp [h1]) none, .unit, ?_, rfl⟩
    simp only [step, hnone, h1, if_true]
    rw [RSys.erase_mk (RSys.hold _ _ _), h.content_hold]
    rfl
  | create x src =>
    simp only [rstep, Option.ite_none_right_eq_some, Option.some.injEq, Prod.mk.injEq] at hs
    obtain ⟨h1, rfl, rfl⟩ := hs
    refine ⟨(h.give L.mv src).hold (by simp [RSys.give_fn, h1]) _, .unit, ?_, rfl⟩
    simp only [step, hnone, h1, if_true]
    rw [RSys.erase_mk (RSys.hold _ _ _), (h.give L.mv src).content_hold, RSys.give_content, RSys.hold_usr, hval, hgiv]
    rfl
  | assign x src =>
    simp only [rstep] at hs
    split_ifs at hs with h1
    simp only [Option.some.injEq, Prod.mk.injEq] at hs
    obtain ⟨rfl, rfl⟩ := hs
    have h2 := (h.give L.mv src).lose x (how := .gone) (by simp)
    refine ⟨h2.hold (by simp [RSys.lose_fn]) _, .unit, ?_, rfl⟩
    simp only [step, hnone, h1, if_false]
    rw [RSys.erase_mk (RSys.hold _ _ _), h2.content_hold, (h.give L.mv src).content_lose, RSys.give_content, RSys.hold_usr, RSys.lose_usr, hval, hgiv, Function.update_idem]
    rfl
  | moveNew d x =>
    simp only [rstep] at hs
    split at hs
    · rename_i c h1 h2
      simp only [Option.some.injEq, Prod.mk.injEq] at hs
      obtain ⟨rfl, rfl⟩ := hs
      have hdx : d ≠ x := by
        rintro rfl
        rw [(RSys.content_none _ _).mpr h1] at h2; cases h2
      have h3 := h.lose x (how := .moved) (by simp)
      refine ⟨h3.hold (by simp [RSys.lose_fn, Function.update_of_ne hdx, h1]) _, .unit, ?_, rfl⟩
      have hx : y.erase.fn x = some c := h2
      simp only [step, hnone, h1, ne_eq, hx]
      rw [if_pos ⟨trivial, by simp⟩, RSys.erase_mk (RSys.hold _ _ _), h3.content_hold, h.content_lose, RSys.hold_usr, RSys.lose_usr]
      rfl
    · cases hs
  | moveAssign d x =>
    simp only [rstep] at hs
    split at hs
    · rename_i cd c h1 h2
      have hx : y.erase.fn x = some c := h2
      have h0 : ¬(y.erase.fn d = none ∨ y.erase.fn x = none) := by rw [hnone, h1, hx]; simp
      split at hs
      · rename_i e
        subst e
        simp only [Option.some.injEq, Prod.mk.injEq] at hs
        obtain ⟨rfl, rfl⟩ := hs
        have h3 := h.lose d (how := .moved) (by simp)
        refine ⟨h3.hold (by simp [RSys.lose_fn]) _, .unit, ?_, rfl⟩
        simp only [step]
        rw [if_neg h0, if_pos trivial, RSys.erase_mk (RSys.hold _ _ _), h3.content_hold, h.content_lose, RSys.hold_usr, RSys.lose_usr, Function.update_idem]
        cases sc
        · simp only [Bool.false_eq_true, if_false]
          rw [← h2, Function.update_eq_self]; rfl
        · rfl
      · rename_i e
        simp only [Option.some.injEq, Prod.mk.injEq] at hs
        obtain ⟨rfl, rfl⟩ := hs
        have h3 := h.lose d (how := .gone) (by simp)
        have h4 := h3.lose x (how := .moved) (by simp)
        refine ⟨h4.hold (by simp [RSys.lose_fn, Function.update_of_ne e]) _, .unit, ?_, rfl⟩
        simp only [step]
        rw [if_neg h0, if_neg e, RSys.erase_mk (RSys.hold _ _ _), h4.content_hold, h3.content_lose, h.content_lose, RSys.hold_usr, RSys.lose_usr, RSys.lose_usr]
        simp only [hx]
        have : Function.update (Function.update (Function.update y.content d (some none)) x (some none)) d (some c) =
            Function.update (Function.update y.erase.fn x (some none)) d (some c) := by
          funext z
          simp only [Function.update_apply]
          split <;> rfl
        rw [this]
        rfl
    · cases hs
  | test x =>
    simp only [rstep, Option.map_eq_some_iff, Prod.mk.injEq] at hs
    obtain ⟨c, h1, rfl, rfl⟩ := hs
    refine ⟨h, .bool c.isSome, ?_, rfl⟩
    have hx : y.erase.fn x = some c := h1
    simp only [step, hx]
  | destroy x =>
    simp only [rstep] at hs
    split_ifs at hs with h1
    simp only [Option.some.injEq, Prod.mk.injEq] at hs
    obtain ⟨rfl, rfl⟩ := hs
    have h2 := h.lose x (how := .gone) (by simp)
    have hfn : Function.update y.fn x none = Function.update (y.lose x .gone).fn x none := by rw [RSys.lose_fn, Function.update_idem]
    rw [hfn]
    have h3 : RSys.WF { y.lose x .gone with fn := Function.update (y.lose x .gone).fn x none } := by
      refine ⟨?_, ?_, ?_, h2.unborn⟩
      · intro z i hz
        simp only [Function.update_apply] at hz
        split at hz
        · cases hz
        · exact h2.alive z i hz
      · intro i w hw
        obtain ⟨z, hz⟩ := h2.held i w hw
        have : z ≠ x := by rintro rfl; simp [RSys.lose_fn] at hz
        exact ⟨z, by simp only [Function.update_of_ne this, hz]⟩
      · intro z z' i hz hz'
        simp only [Function.update_apply] at hz hz'
        split at hz <;> split at hz' <;> first | cases hz | cases hz' | skip
        exact h2.uniq z z' i hz hz'
    refine ⟨h3, .unit, ?_, rfl⟩
    simp only [step, hnone, h1, if_false, Option.some.injEq, Prod.mk.injEq, true_and]
    simp only [RSys.erase, Sys.mk.injEq, RSys.lose_usr, and_true]
    funext z
    by_cases e : z = x
    · subst e
      rw [Function.update_self]
      simp only [RSys.content, Function.update_self]
    · rw [Function.update_of_ne e]
      symm
      have : RSys.content { y.lose x .gone with fn := Function.update (y.lose x .gone).fn x none } z = (y.lose x .gone).content z := by
        apply RSys.content_congr
        · simp only [Function.update_of_ne e]
        · intro i _; rfl
      simp only [RSys.lose_usr] at this
      rw [this, h.content_lose, Function.update_of_ne e]

/-- what happens to identities -/
theorem rstep_ids (mv : S → S) (sc : Bool) {y y' : RSys S} {op : Op A} {r : Reply R} (hs : rstep mv sc y op = some (r, y')) :
    y.next ≤ y'.next ∧
    (∀ x i, y'.fn x = some (some (.obj i)) → i = y.next ∨ (x ∉ op.vars ∧ y.fn x = some (some (.obj i)))) ∧
    (∀ i, y'.st i = .gone → y.st i = .gone ∨ ∃ x ∈ op.kills, y.fn x = some (some (.obj i))) := by
  have hold_next : ∀ (y : RSys S) x c, y.next ≤ (y.hold x c).next := by
    intro y x c; rcases c with _ | _ | _ <;> simp [RSys.hold]
  have hold_fn : ∀ (y : RSys S) x c z i, (y.hold x c).fn z = some (some (.obj i)) → (z = x ∧ i = y.next) ∨ (z ≠ x ∧ y.fn z = some (some (.obj i))) := by
    intro y x c z i hz
    by_cases e : z = x
    · subst e
      rcases c with _ | _ | _ <;> simp [RSys.hold] at hz
      exact .inl ⟨rfl, hz.symm⟩
    · exact .inr ⟨e, by rcases c with _ | _ | _ <;> simpa [RSys.hold, e] using hz⟩
  have hold_st : ∀ (y : RSys S) x c i, (y.hold x c).st i = .gone → y.st i = .gone := by
    intro y x c i hi
    rcases c with _ | _ | _
    · exact hi
    · exact hi
    · simp only [RSys.hold, Function.update_apply] at hi
      split at hi
      · cases hi
      · exact hi
  have lose_fn : ∀ (y : RSys S) x how z i, (y.lose x how).fn z = some (some (.obj i)) → z ≠ x ∧ y.fn z = some (some (.obj i)) := by
    intro y x how z i hz
    rw [RSys.lose_fn, Function.update_apply] at hz
    split at hz
    · cases hz
    · exact ⟨by assumption, hz⟩
  have lose_moved : ∀ (y : RSys S) x i, (y.lose x .moved).st i = .gone → y.st i = .gone := by
    intro y x i hi
    by_cases hx : y.fn x = some (some (.obj i))
    · rw [RSys.lose_st_self _ _ _ _ hx] at hi; cases hi
    · rwa [RSys.lose_st _ _ _ _ hx] at hi
  have lose_gone : ∀ (y : RSys S) x i, (y.lose x .gone).st i = .gone → y.st i = .gone ∨ y.fn x = some (some (.obj i)) := by
    intro y x i hi
    by_cases hx : y.fn x = some (some (.obj i))
    · exact .inr hx
    · left; rwa [RSys.lose_st _ _ _ _ hx] at hi
  cases op with
  | call x a => simp [rstep] at hs
  | default x =>
    simp only [rstep, Option.ite_none_right_eq_some, Option.some.injEq, Prod.mk.injEq] at hs
    obtain ⟨h1, rfl, rfl⟩ := hs
    refine ⟨hold_next _ _ _, fun z i hz => ?_, fun i hi => .inl (hold_st _ _ _ _ hi)⟩
    rcases hold_fn _ _ _ _ _ hz with ⟨-, h⟩ | ⟨h, h'⟩
    · exact .inl h
    · exact .inr ⟨by simpa [Op.vars] using h, h'⟩
  | create x src =>
    simp only [rstep, Option.ite_none_right_eq_some, Option.some.injEq, Prod.mk.injEq] at hs
    obtain ⟨h1, rfl, rfl⟩ := hs
    refine ⟨Nat.le_trans (Nat.le_of_eq (by rw [RSys.give_next])) (hold_next _ _ _), fun z i hz => ?_, fun i hi => .inl (by have := hold_st _ _ _ _ hi; rwa [RSys.give_st] at this)⟩
    rcases hold_fn _ _ _ _ _ hz with ⟨-, h⟩ | ⟨h, h'⟩
    · rw [RSys.give_next] at h; exact .inl h
    · rw [RSys.give_fn] at h'; exact .inr ⟨by simpa [Op.vars] using h, h'⟩
  | assign x src =>
    simp only [rstep] at hs
    split_ifs at hs with h1
    simp only [Option.some.injEq, Prod.mk.injEq] at hs
    obtain ⟨rfl, rfl⟩ := hs
    refine ⟨Nat.le_trans (Nat.le_of_eq (by rw [RSys.lose_next, RSys.give_next])) (hold_next _ _ _), fun z i hz => ?_, fun i hi => ?_⟩
    · rcases hold_fn _ _ _ _ _ hz with ⟨-, h⟩ | ⟨h, h'⟩
      · rw [RSys.lose_next, RSys.give_next] at h; exact .inl h
      · have := (lose_fn _ _ _ _ _ h').2
        rw [RSys.give_fn] at this; exact .inr ⟨by simpa [Op.vars] using h, this⟩
    · have := lose_gone _ _ _ (hold_st _ _ _ _ hi)
      rw [RSys.give_st, RSys.give_fn] at this
      exact this.imp id fun h => ⟨x, by simp [Op.kills], h⟩
  | moveNew d x =>
    simp only [rstep] at hs
    split at hs
    · simp only [Option.some.injEq, Prod.mk.injEq] at hs
      obtain ⟨rfl, rfl⟩ := hs
      refine ⟨Nat.le_trans (Nat.le_of_eq (by rw [RSys.lose_next])) (hold_next _ _ _), fun z i hz => ?_, fun i hi => .inl (lose_moved _ _ _ (hold_st _ _ _ _ hi))⟩
      rcases hold_fn _ _ _ _ _ hz with ⟨-, h⟩ | ⟨h, h'⟩
      · rw [RSys.lose_next] at h; exact .inl h
      · have := lose_fn _ _ _ _ _ h'
        exact .inr ⟨by simp [Op.vars, h, this.1], this.2⟩
    · cases hs
  | moveAssign d x =>
    simp only [rstep] at hs
    split at hs
    · split at hs
      · rename_i e
        subst e
        simp only [Option.some.injEq, Prod.mk.injEq] at hs
        obtain ⟨rfl, rfl⟩ := hs
        refine ⟨Nat.le_trans (Nat.le_of_eq (by rw [RSys.lose_next])) (hold_next _ _ _), fun z i hz => ?_, fun i hi => .inl (lose_moved _ _ _ (hold_st _ _ _ _ hi))⟩
        rcases hold_fn _ _ _ _ _ hz with ⟨-, h⟩ | ⟨h, h'⟩
        · rw [RSys.lose_next] at h; exact .inl h
        · have := lose_fn _ _ _ _ _ h'
          exact .inr ⟨by simp [Op.vars, h], this.2⟩
      · rename_i e
        simp only [Option.some.injEq, Prod.mk.injEq] at hs
        obtain ⟨rfl, rfl⟩ := hs
        refine ⟨Nat.le_trans (Nat.le_of_eq (by rw [RSys.lose_next, RSys.lose_next])) (hold_next _ _ _), fun z i hz => ?_, fun i hi => ?_⟩
        · rcases hold_fn _ _ _ _ _ hz with ⟨-, h⟩ | ⟨h, h'⟩
          · rw [RSys.lose_next, RSys.lose_next] at h; exact .inl h
          · have h3 := lose_fn _ _ _ _ _ h'
            have h4 := lose_fn _ _ _ _ _ h3.2
            exact .inr ⟨by simp [Op.vars, h3.1, h4.1], h4.2⟩
        · exact (lose_gone _ _ _ (lose_moved _ _ _ (hold_st _ _ _ _ hi))).imp id fun h => ⟨d, by simp [Op.kills, e], h⟩
    · cases hs
  | test x =>
    simp only [rstep, Option.map_eq_some_iff, Prod.mk.injEq] at hs
    obtain ⟨c, h1, rfl, rfl⟩ := hs
    exact ⟨Nat.le_refl _, fun z i hz => .inr ⟨by simp [Op.vars], hz⟩, fun i hi => .inl hi⟩
  | destroy x =>
    simp only [rstep] at hs
    split_ifs at hs with h1
    simp only [Option.some.injEq, Prod.mk.injEq] at hs
    obtain ⟨rfl, rfl⟩ := hs
    refine ⟨by simp [RSys.lose_next], fun z i hz => ?_, fun i hi => ?_⟩
    · simp only [Function.update_apply] at hz
      split at hz
      · cases hz
      · rename_i e
        exact .inr ⟨by simpa [Op.vars] using e, hz⟩
    · exact (lose_gone _ _ _ hi).imp id fun h => ⟨x, by simp [Op.kills], h⟩

end Spec

open Spec

/-- The memory has the function objects of the specification: the function object `i` is at `τ i`. -/
structure Rel (τ : Nat → Nat) (y : RSys S) (s : St S) : Prop where
  wf : y.WF
  good : Good (lift y.content) y.usr s
  adr : ∀ x i, y.fn x = some (some (.obj i)) → ∃ pl, s.fn (.var x) = some (.obj pl (τ i))
  gone : ∀ i, y.st i = .gone → i < y.next ∧ At (τ i) none s

variable {L : RLang S A R} {lib : Lib S} {fails : Nat → Bool}

/-- one call that runs no callable -/
theorem rstep_refines (hlib : lib.Lawful) {τ : Nat → Nat} {y y' : RSys S} {s : St S} {op : Op A} {r : Reply R} (h : Rel τ y s)
    (hs : rstep L.mv lib.clearFirst y op = some (r, y')) :
    (∃ r0 s' τ', exec L.base lib fails op s = .ok r0 s' ∧ r0 ≠ .terminated ∧ r0.ofBase = r ∧ Rel τ' y' s' ∧ y.next ≤ y'.next ∧ ∀ i < y.next, τ' i = τ i) ∨
    ((∃ n, fails n = true) ∧ ∃ s', exec L.base lib fails op s = .ok .terminated s') := by
  have hc : op.isCall = false := by cases op <;> first | rfl | simp [rstep] at hs
  obtain ⟨hwf, r0, hstep, hr0⟩ := rstep_erase L lib.clearFirst h.wf hs
  obtain ⟨hn, hids, hgone⟩ := rstep_ids L.mv lib.clearFirst hs
  rcases step_refines (fails := fails) hlib (y := y.erase) h.good hstep with ⟨hne, s', e, g⟩ | h'
  · left
    classical
    let τ' : Nat → Nat := fun i => if i < y.next then τ i else
      if hx : ∃ a, ∃ x pl, y'.fn x = some (some (.obj i)) ∧ s'.fn (.var x) = some (.obj pl a) then hx.choose else 0
    refine ⟨r0, s', τ', e, hne, hr0, ⟨hwf, g, ?_, ?_⟩, hn, fun i hi => by simp only [τ', if_pos hi]⟩
    · intro x i hx
      by_cases hi : i < y.next
      · rcases hids x i hx with rfl | ⟨hv, hx'⟩
        · omega
        · obtain ⟨pl, hp⟩ := h.adr x i hx'
          refine ⟨pl, ?_⟩
          simp only [τ', if_pos hi]
          rw [exec_fr L.base lib fails hc hv e hne, hp]
      · obtain ⟨v, hv⟩ := hwf.alive x i hx
        have hcx : lift y'.content (.var x) = some (some (.obj v)) := by
          simp only [lift, RSys.content, hx, hv]
        obtain ⟨pl, a, h1, -, -⟩ := g.fn_obj hcx
        have hex : ∃ a, ∃ x pl, y'.fn x = some (some (.obj i)) ∧ s'.fn (.var x) = some (.obj pl a) := ⟨a, x, pl, hx, h1⟩
        obtain ⟨x', pl', h2, h3⟩ := hex.choose_spec
        have := hwf.uniq _ _ _ hx h2
        subst this
        refine ⟨pl', ?_⟩
        simp only [τ', if_neg hi, dif_pos hex]
        exact h3
    · intro i hi
      rcases hgone i hi with h1 | ⟨x, hx, h1⟩
      · obtain ⟨h2, h3⟩ := h.gone i h1
        refine ⟨by omega, ?_⟩
        simp only [τ', if_pos h2]
        exact exec_tr L.base lib fails hc (.inl ⟨rfl, rfl⟩) h3 e hne
      · have h2 := h.wf.lt h1
        refine ⟨by omega, ?_⟩
        simp only [τ', if_pos h2]
        obtain ⟨pl, hp⟩ := h.adr x i h1
        exact exec_tr L.base lib fails hc (.inr ⟨rfl, x, hx, rfl⟩) ⟨h.good.lt _ _ _ hp, .inr ⟨_, pl, rfl, hp⟩⟩ e hne
  · exact .inr h'

/-- the callable that is running, and the address that it was called at -/
def Frame (τ : Nat → Nat) (y : RSys S) : Option Nat → Option Nat → Prop
  | none, none => True
  | some i, some a => i < y.next ∧ τ i = a
  | _, _ => False

theorem Frame.mono {τ τ' : Nat → Nat} {y y' : RSys S} {me ad : Option Nat} (h : Frame τ y me ad) (hn : y.next ≤ y'.next)
    (ht : ∀ i < y.next, τ' i = τ i) : Frame τ' y' me ad := by
  rcases me with _ | i <;> rcases ad with _ | a
  · trivial
  · exact h
  · exact h
  · exact ⟨by have := h.1; omega, by rw [ht i h.1, h.2]⟩

theorem Rel.alive {τ : Nat → Nat} {y : RSys S} {s : St S} (h : Rel τ y s) {i : Nat} {v : S} (hi : y.st i = .alive v) :
    ∃ x pl, y.fn x = some (some (.obj i)) ∧ s.fn (.var x) = some (.obj pl (τ i)) ∧ s.obj (τ i) = some v := by
  obtain ⟨x, hx⟩ := h.wf.held i v hi
  obtain ⟨pl, hp⟩ := h.adr x i hx
  have hcx : lift y.content (.var x) = some (some (.obj v)) := by simp only [lift, RSys.content, hx, hi]
  obtain ⟨pl', a, h1, -, h2⟩ := h.good.fn_obj hcx
  rw [hp] at h1
  cases h1
  exact ⟨x, pl, hx, hp, h2⟩

theorem Rel.store {τ : Nat → Nat} {y : RSys S} {s : St S} (h : Rel τ y s) {i : Nat} {v w : S} (hi : y.st i = .alive v) :
    Rel τ { y with st := Function.update y.st i (.alive w) } { s with obj := Function.update s.obj (τ i) (some w) } := by
  obtain ⟨x, pl, hx, hp, ho⟩ := h.alive hi
  have hcx : lift y.content (.var x) = some (some (.obj v)) := by simp only [lift, RSys.content, hx, hi]
  refine ⟨⟨?_, ?_, h.wf.uniq, ?_⟩, ?_, h.adr, ?_⟩
  · intro z j hz
    simp only [Function.update_apply]
    split
    · exact ⟨w, rfl⟩
    · exact h.wf.alive z j hz
  · intro j u hu
    simp only [Function.update_apply] at hu
    split at hu
    · rename_i e; exact ⟨x, by rw [e]; exact hx⟩
    · exact h.wf.held j u hu
  · intro j hj
    have := h.wf.lt hx
    simp only at hj ⊢
    rw [Function.update_of_ne (by omega)]
    exact h.wf.unborn j hj
  · refine (good_set h.good (w := w) hp hcx).congr ?_
    intro l
    rw [← lift_update]
    congr 1
    funext z
    by_cases e : z = x
    · subst e
      rw [Function.update_self]
      simp only [RSys.content, hx, Function.update_self]
    · rw [Function.update_of_ne e]
      apply RSys.content_congr
      · rfl
      · intro j hj
        have : j ≠ i := by rintro rfl; exact e (h.wf.uniq _ _ _ hj hx)
        simp only [Function.update_of_ne this]
  · intro j hj
    simp only [Function.update_apply] at hj
    split at hj
    · cases hj
    · obtain ⟨h1, h2⟩ := h.gone j hj
      refine ⟨h1, h2.1, .inl ?_⟩
      have h3 : s.obj (τ j) = none := by
        rcases h2.2 with h | ⟨_, _, hn, _⟩
        · exact h
        · cases hn
      have : τ j ≠ τ i := by intro e; rw [e, ho] at h3; cases h3
      simp only [Function.update_of_ne this, h3]

/-- What is asked of the model where the specification says `o`. -/
def Meets (fails : Nat → Bool) (τ : Nat → Nat) (n : Nat) (o : Out S R) (m : ROut S R) : Prop :=
  ((∃ k, fails k = true) ∧ m = .terminated) ∨
  match o with
  | .ret r y => ∃ s τ', m = .ret r s ∧ Rel τ' y s ∧ n ≤ y.next ∧ ∀ i < n, τ' i = τ i
  | .ub => m = .ub
  | .fuel => m = .fuel
  | .unsaid => True

theorem Meets.mono {τ τ' : Nat → Nat} {n n' : Nat} {o : Out S R} {m : ROut S R} (h : Meets fails τ' n' o m) (hn : n ≤ n')
    (ht : ∀ i < n, τ' i = τ i) : Meets fails τ n o m := by
  rcases h with h | h
  · exact .inl h
  · right
    cases o with
    | ret r y =>
      obtain ⟨s, t, h1, h2, h3, h4⟩ := h
      exact ⟨s, t, h1, h2, by omega, fun i hi => by rw [h4 i (by omega), ht i hi]⟩
    | ub => exact h
    | fuel => exact h
    | unsaid => exact h

theorem Meets.bind {τ : Nat → Nat} {n : Nat} {o : Out S R} {m : ROut S R} {f : R → RSys S → Out S R} {g : R → St S → ROut S R}
    (h : Meets fails τ n o m)
    (hk : ∀ r y s τ', Rel τ' y s → n ≤ y.next → (∀ i < n, τ' i = τ i) → Meets fails τ' y.next (f r y) (g r s)) :
    Meets fails τ n (o.bind f) (m.bind g) := by
  rcases h with ⟨h1, rfl⟩ | h
  · exact .inl ⟨h1, rfl⟩
  · cases o with
    | ret r y =>
      obtain ⟨s, t, rfl, h2, h3, h4⟩ := h
      exact (hk r y s t h2 h3 h4).mono h3 h4
    | ub => cases h; exact .inr rfl
    | fuel => cases h; exact .inr rfl
    | unsaid => exact .inr trivial

theorem run_meets (hlib : lib.Lawful) : ∀ (n : Nat) (τ : Nat → Nat) (me ad : Option Nat) (b : Body S A R) (y : RSys S) (s : St S),
    Rel τ y s → Frame τ y me ad → Meets fails τ y.next (rrun L lib.clearFirst n me b y) (xrun L lib fails n ad b s) := by
  intro n
  induction n with
  | zero => intro τ me ad b y s _ _; exact .inr (by simp [rrun, xrun])
  | succ n ih =>
    intro τ me ad b y s h hf
    cases b with
    | ret r => exact .inr (by simp only [rrun, xrun]; exact ⟨s, τ, rfl, h, Nat.le_refl _, fun _ _ => rfl⟩)
    | load k =>
      rcases me with _ | i
      · simp only [rrun]; exact .inr trivial
      rcases ad with _ | a
      · exact hf.elim
      obtain ⟨h1, rfl⟩ := hf
      simp only [rrun, xrun]
      cases hi : y.st i with
      | alive v =>
        obtain ⟨x, pl, -, -, ho⟩ := h.alive hi
        simp only [ho]
        exact ih τ _ _ (k v) y s h ⟨h1, rfl⟩
      | gone =>
        obtain ⟨-, -, h2⟩ := h.gone i hi
        have ho : s.obj (τ i) = none := by
          rcases h2 with h | ⟨_, _, hn, _⟩
          · exact h
          · cases hn
        simp only [ho]
        exact .inr rfl
      | unborn => exact .inr trivial
      | moved => exact .inr trivial
    | store v k =>
      rcases me with _ | i
      · simp only [rrun]; exact .inr trivial
      rcases ad with _ | a
      · exact hf.elim
      obtain ⟨h1, rfl⟩ := hf
      simp only [rrun, xrun]
      cases hi : y.st i with
      | alive w =>
        obtain ⟨x, pl, -, -, ho⟩ := h.alive hi
        simp only [ho]
        exact ih τ _ _ k _ _ (h.store hi) ⟨h1, rfl⟩
      | gone =>
        obtain ⟨-, -, h2⟩ := h.gone i hi
        have ho : s.obj (τ i) = none := by
          rcases h2 with h | ⟨_, _, hn, _⟩
          · exact h
          · cases hn
        simp only [ho]
        exact .inr rfl
      | unborn => exact .inr trivial
      | moved => exact .inr trivial
    | op o k =>
      have plain : o.isCall = false → Meets fails τ y.next
          (match rstep L.mv lib.clearFirst y o with
            | some (r, y) => rrun L lib.clearFirst n me (k r) y
            | none => .unsaid)
          (match exec L.base lib fails o s with
            | .ok .terminated _ => .terminated
            | .ok r s => xrun L lib fails n ad (k r.ofBase) s
            | .throw _ _ => .terminated
            | .ub => .ub) := by
        intro hc
        cases hs : rstep (R := R) L.mv lib.clearFirst y o with
        | none => exact .inr trivial
        | some p =>
          obtain ⟨r, y'⟩ := p
          rcases rstep_refines (fails := fails) hlib h hs with ⟨r0, s', τ', e, hne, hr, h', hn, ht⟩ | ⟨hk, s', e⟩
          · rw [e]
            have := (ih τ' me ad (k r) y' s' h' (hf.mono hn ht)).mono hn ht
            rw [← hr] at this ⊢
            cases r0 with
            | terminated => exact absurd rfl hne
            | _ => exact this
          · rw [e]
            exact .inl ⟨hk, rfl⟩
      cases o with
      | call x a =>
        simp only [rrun, xrun]
        rcases hx : y.fn x with _ | _ | p | i
        · exact .inr trivial
        · have : s.fn (.var x) = some .none := (h.good.fn_empty _).mpr (by simp only [lift, RSys.content, hx])
          simp only [this]
          exact ih τ me ad _ y s h hf
        · have : s.fn (.var x) = some (.ptr p) := h.good.fn_ptr (by simp only [lift, RSys.content, hx])
          simp only [this]
          exact (ih τ none none _ y s h trivial).bind fun r y' s' τ' h' hn ht => ih τ' me ad _ y' s' h' (hf.mono hn ht)
        · obtain ⟨v, hv⟩ := h.wf.alive x i hx
          obtain ⟨pl, hp⟩ := h.adr x i hx
          obtain ⟨_, _, -, -, ho⟩ := h.alive hv
          simp only [hv, hp, ho]
          exact (ih τ (some i) (some (τ i)) _ y s h ⟨h.wf.lt hx, rfl⟩).bind fun r y' s' τ' h' hn ht => ih τ' me ad _ y' s' h' (hf.mono hn ht)
      | default x => simp only [rrun, xrun]; exact plain rfl
      | create x src => simp only [rrun, xrun]; exact plain rfl
      | assign x src => simp only [rrun, xrun]; exact plain rfl
      | moveNew d x => simp only [rrun, xrun]; exact plain rfl
      | moveAssign d x => simp only [rrun, xrun]; exact plain rfl
      | test x => simp only [rrun, xrun]; exact plain rfl
      | destroy x => simp only [rrun, xrun]; exact plain rfl

theorem rel_start (usr : Nat → S) : Rel id (rstart usr) (start usr) := by
  refine ⟨⟨?_, ?_, ?_, ?_⟩, ?_, ?_, ?_⟩
  · intro x i h; cases h
  · intro i v h; cases h
  · intro x x' i h; cases h
  · intro i _; rfl
  · exact (good_start usr).congr (fun l => by cases l <;> rfl)
  · intro x i h; cases h
  · intro i h; cases h

end Itlib.UFunction
