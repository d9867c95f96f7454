import Verif.Core.Tac
import Verif.UFunction.Model

/-! # The memory has exactly the function objects that are targets -/
namespace Itlib.UFunction
variable {S A R : Type}

/-- what a place has, seen from the outside -/
def Holds (obj : Nat → Option S) : Option Tgt → Option (Option (Callee S)) → Prop
  | none, none => True
  | some .none, some none => True
  | some (.ptr p), some (some (.ptr q)) => p = q
  | some (.obj pl a), some (some (.obj v)) => pl ≠ .inlineCopied ∧ obj a = some v
  | _, _ => False

/-- The places have these callables. Every function object that exists is at one place, and no other place. No wrapper
was copied. -/
structure Good (σ : Loc → Option (Option (Callee S))) (usr : Nat → S) (s : St S) : Prop where
  val : ∀ l, Holds s.obj (s.fn l) (σ l)
  inj : ∀ l l' pl pl' a, s.fn l = some (.obj pl a) → s.fn l' = some (.obj pl' a) → l = l'
  own : ∀ a, s.obj a ≠ none → ∃ l pl, s.fn l = some (.obj pl a)
  lt : ∀ l pl a, s.fn l = some (.obj pl a) → a < s.next
  usr : s.usr = usr
  nocopy : s.copies = 0

variable {σ : Loc → Option (Option (Callee S))} {usr : Nat → S} {s : St S}

namespace Good

theorem fn_none (h : Good σ usr s) (l : Loc) : s.fn l = none ↔ σ l = none := by
  have := h.val l
  revert this
  rcases s.fn l with _ | _ | _ | _ <;> rcases σ l with _ | _ | _ | _ <;> simp [Holds]

theorem fn_empty (h : Good σ usr s) (l : Loc) : s.fn l = some .none ↔ σ l = some none := by
  have := h.val l
  revert this
  rcases s.fn l with _ | _ | _ | _ <;> rcases σ l with _ | _ | _ | _ <;> simp [Holds]

theorem fn_ptr (h : Good σ usr s) {l : Loc} {p : Nat} (hl : σ l = some (some (.ptr p))) : s.fn l = some (.ptr p) := by
  have := h.val l
  rw [hl] at this
  revert this
  rcases s.fn l with _ | _ | _ | _ <;> simp [Holds]

theorem fn_obj (h : Good σ usr s) {l : Loc} {v : S} (hl : σ l = some (some (.obj v))) :
    ∃ pl a, s.fn l = some (.obj pl a) ∧ pl ≠ .inlineCopied ∧ s.obj a = some v := by
  have := h.val l
  rw [hl] at this
  revert this
  rcases s.fn l with _ | _ | _ | ⟨pl, a⟩ <;> simp [Holds]
  intro h1 h2
  exact ⟨pl, a, ⟨rfl, rfl⟩, h1, h2⟩

theorem fresh (h : Good σ usr s) : s.obj s.next = none := by
  by_contra hn
  obtain ⟨l, pl, hl⟩ := h.own _ hn
  exact absurd (h.lt _ _ _ hl) (Nat.lt_irrefl _)

/-- allocations do not matter -/
theorem allocs (h : Good σ usr s) (n : Nat) : Good σ usr { s with allocs := n } := ⟨h.val, h.inj, h.own, h.lt, h.usr, h.nocopy⟩

theorem setUsr (h : Good σ usr s) (u : Nat → S) : Good σ u { s with usr := u } := ⟨h.val, h.inj, h.own, h.lt, rfl, h.nocopy⟩

end Good

theorem Holds.congr {obj obj' : Nat → Option S} {t : Option Tgt} {c : Option (Option (Callee S))} (h : Holds obj t c)
    (ho : ∀ pl a, t = some (.obj pl a) → obj' a = obj a) : Holds obj' t c := by
  revert h ho
  rcases t with _ | _ | _ | ⟨pl, a⟩ <;> rcases c with _ | _ | _ | _ <;> simp [Holds]
  intro h1 h2 h3
  exact ⟨h1, by rw [h3, h2]⟩

/-- A new object with value `v` in the empty place `d`. -/
theorem good_new (h : Good σ usr s) {d : Loc} (hd : σ d = none) (v : S) (pl : Place) (hpl : pl ≠ .inlineCopied) :
    Good (Function.update σ d (some (some (.obj v)))) usr { s with
      fn := Function.update s.fn d (some (.obj pl s.next))
      obj := Function.update s.obj s.next (some v)
      next := s.next + 1 } := by
  have hfd : s.fn d = none := (h.fn_none d).mpr hd
  refine ⟨?_, ?_, ?_, ?_, h.usr, h.nocopy⟩
  · intro l
    by_cases hl : l = d
    · subst hl; simp [Holds, hpl]
    · simp only [Function.update_of_ne hl]
      apply (h.val l).congr
      intro p a ha
      have := h.lt _ _ _ ha
      rw [Function.update_of_ne (by omega)]
  · intro l l' p p' a h1 h2
    simp only [Function.update_apply] at h1 h2
    split_ifs at h1 h2 with e1 e2 e2
    · rw [e1, e2]
    · have := h.lt _ _ _ h2
      simp only [Option.some.injEq, Tgt.obj.injEq] at h1
      omega
    · have := h.lt _ _ _ h1
      simp only [Option.some.injEq, Tgt.obj.injEq] at h2
      omega
    · exact h.inj _ _ _ _ _ h1 h2
  · intro a ha
    by_cases e : a = s.next
    · exact ⟨d, pl, by simp [e]⟩
    · simp only [Function.update_of_ne e] at ha
      obtain ⟨l, p, hl⟩ := h.own a ha
      have : l ≠ d := by rintro rfl; rw [hfd] at hl; simp at hl
      exact ⟨l, p, by simp only [Function.update_of_ne this]; exact hl⟩
  · intro l p a hl
    simp only [Function.update_apply] at hl
    split_ifs at hl with e
    · simp only [Option.some.injEq, Tgt.obj.injEq] at hl
      show a < s.next + 1
      omega
    · have := h.lt _ _ _ hl
      show a < s.next + 1
      omega

/-- The object in `l` gets another value. -/
theorem good_set (h : Good σ usr s) {l : Loc} {pl : Place} {a : Nat} {v w : S} (hl : s.fn l = some (.obj pl a))
    (hv : σ l = some (some (.obj v))) :
    Good (Function.update σ l (some (some (.obj w)))) usr { s with obj := Function.update s.obj a (some w) } := by
  refine ⟨?_, h.inj, ?_, h.lt, h.usr, h.nocopy⟩
  · intro k
    by_cases hk : k = l
    · subst hk
      have := h.val k
      rw [hv, hl] at this
      simp only [Function.update_self, hl]
      exact ⟨this.1, by simp⟩
    · simp only [Function.update_of_ne hk]
      apply (h.val k).congr
      intro p b hb
      have : b ≠ a := by rintro rfl; exact hk (h.inj _ _ _ _ _ hb hl)
      rw [Function.update_of_ne this]
  · intro b hb
    by_cases e : b = a
    · exact ⟨l, pl, by rw [e]; exact hl⟩
    · simp only [Function.update_of_ne e] at hb
      exact h.own b hb

variable (L : Lang S A R) (lib : Lib S) (fails : Nat → Bool)

theorem good_mkObj (h : Good σ usr s) {d : Loc} (hd : σ d = none) (v : S) :
    ∃ s', mkObj d v s = .ok () s' ∧ Good (Function.update σ d (some (some (.obj v)))) usr s' := by
  exact ⟨_, by rw [mkObj, if_neg (not_not_intro ((h.fn_none d).mpr hd))], good_new h hd v _ (by simp)⟩

theorem good_moveObj (h : Good σ usr s) {d src : Loc} {v : S} (hd : σ d = none) (hs : σ src = some (some (.obj v)))
    {pl : Place} (hpl : pl ≠ .inlineCopied) :
    ∃ s', moveObj L d src pl s = .ok () s' ∧
      Good (Function.update (Function.update σ src (some (some (.obj (L.mv v))))) d (some (some (.obj v)))) usr s' := by
  obtain ⟨p, a, h1, h2, h3⟩ := h.fn_obj hs
  have hne : d ≠ src := by rintro rfl; rw [hd] at hs; simp at hs
  have hg := good_set (w := L.mv v) h h1 hs
  have hn := good_new hg (d := d) (by rw [Function.update_of_ne hne]; exact hd) v pl hpl
  refine ⟨_, ?_, hn⟩
  have : s.fn d = none := (h.fn_none d).mpr hd
  simp only [moveObj, h1, h3, this, ne_eq, not_true_eq_false, if_false]

/-- Taking a place out. -/
theorem good_drop (h : Good σ usr s) {l : Loc} (hl : σ l ≠ none) :
    ∃ s', drop l s = .ok () s' ∧ Good (Function.update σ l none) usr s' := by
  rcases hc : σ l with _ | _ | p | v
  · exact absurd hc hl
  · have h1 := (h.fn_empty l).mpr hc
    refine ⟨_, by simp only [drop, h1]; rfl, ?_⟩
    refine ⟨?_, ?_, ?_, ?_, h.usr, h.nocopy⟩
    · intro k
      by_cases hk : k = l
      · subst hk; simp [Holds]
      · simp only [Function.update_of_ne hk]; exact h.val k
    · intro k k' p p' a e1 e2
      simp only [Function.update_apply] at e1 e2
      split_ifs at e1 e2
      exact h.inj _ _ _ _ _ e1 e2
    · intro a ha
      obtain ⟨k, p, hk⟩ := h.own a ha
      have : k ≠ l := by rintro rfl; rw [h1] at hk; simp at hk
      exact ⟨k, p, by simp only [Function.update_of_ne this]; exact hk⟩
    · intro k p a e1
      simp only [Function.update_apply] at e1
      split_ifs at e1
      exact h.lt _ _ _ e1
  · have h1 := h.fn_ptr hc
    refine ⟨_, by simp only [drop, h1]; rfl, ?_⟩
    refine ⟨?_, ?_, ?_, ?_, h.usr, h.nocopy⟩
    · intro k
      by_cases hk : k = l
      · subst hk; simp [Holds]
      · simp only [Function.update_of_ne hk]; exact h.val k
    · intro k k' p p' a e1 e2
      simp only [Function.update_apply] at e1 e2
      split_ifs at e1 e2
      exact h.inj _ _ _ _ _ e1 e2
    · intro a ha
      obtain ⟨k, p, hk⟩ := h.own a ha
      have : k ≠ l := by rintro rfl; rw [h1] at hk; simp at hk
      exact ⟨k, p, by simp only [Function.update_of_ne this]; exact hk⟩
    · intro k p a e1
      simp only [Function.update_apply] at e1
      split_ifs at e1
      exact h.lt _ _ _ e1
  · obtain ⟨pl, a, h1, h2, h3⟩ := h.fn_obj hc
    refine ⟨{ s with fn := Function.update s.fn l none, obj := Function.update s.obj a none }, ?_, ?_⟩
    · simp [drop, h1, h3]
    refine ⟨?_, ?_, ?_, ?_, h.usr, h.nocopy⟩
    · intro k
      by_cases hk : k = l
      · subst hk; simp [Holds]
      · simp only [Function.update_of_ne hk]
        apply (h.val k).congr
        intro p b hb
        have : b ≠ a := by rintro rfl; exact hk (h.inj _ _ _ _ _ hb h1)
        rw [Function.update_of_ne this]
    · intro k k' p p' b e1 e2
      simp only [Function.update_apply] at e1 e2
      split_ifs at e1 e2
      exact h.inj _ _ _ _ _ e1 e2
    · intro b hb
      have hba : b ≠ a := by rintro rfl; simp at hb
      simp only [Function.update_of_ne hba] at hb
      obtain ⟨k, p, hk⟩ := h.own b hb
      have : k ≠ l := by
        rintro rfl
        rw [h1] at hk
        simp only [Option.some.injEq, Tgt.obj.injEq] at hk
        exact hba hk.2.symm
      exact ⟨k, p, by simp only [Function.update_of_ne this]; exact hk⟩
    · intro k p b e1
      simp only [Function.update_apply] at e1
      split_ifs at e1
      exact h.lt _ _ _ e1

/-- `std::function`s without function objects -/
def plain : Option (Callee S) → Option Tgt
  | none => some .none
  | some (.ptr p) => some (.ptr p)
  | some (.obj _) => none

theorem good_put (h : Good σ usr s) {l : Loc} (hl : σ l = none) {t : Tgt} {c : Option (Callee S)} (hc : plain c = some t) :
    ∃ s', put l t s = .ok () s' ∧ Good (Function.update σ l (some c)) usr s' := by
  have hfl : s.fn l = none := (h.fn_none l).mpr hl
  refine ⟨{ s with fn := Function.update s.fn l (some t) }, by simp [put, hfl], ?_⟩
  have hto : ∀ pl a, t ≠ .obj pl a := by
    intro pl a e
    subst e
    rcases c with _ | _ | _ <;> simp [plain] at hc
  refine ⟨?_, ?_, ?_, ?_, h.usr, h.nocopy⟩
  · intro k
    by_cases hk : k = l
    · subst hk
      simp only [Function.update_self]
      rcases c with _ | p | v <;> simp [plain] at hc <;> subst hc <;> simp [Holds]
    · simp only [Function.update_of_ne hk]; exact h.val k
  · intro k k' p p' a e1 e2
    simp only [Function.update_apply] at e1 e2
    split_ifs at e1 e2
    · exact absurd (Option.some.inj e1) (hto _ _)
    · exact absurd (Option.some.inj e1) (hto _ _)
    · exact absurd (Option.some.inj e2) (hto _ _)
    · exact h.inj _ _ _ _ _ e1 e2
  · intro a ha
    obtain ⟨k, p, hk⟩ := h.own a ha
    have : k ≠ l := by rintro rfl; rw [hfl] at hk; simp at hk
    exact ⟨k, p, by simp only [Function.update_of_ne this]; exact hk⟩
  · intro k p a e1
    simp only [Function.update_apply] at e1
    split_ifs at e1
    · exact absurd (Option.some.inj e1) (hto _ _)
    · exact h.lt _ _ _ e1

theorem Good.congr {τ : Loc → Option (Option (Callee S))} (h : Good σ usr s) (e : ∀ l, τ l = σ l) : Good τ usr s := by
  rw [show τ = σ from funext e]; exact h

theorem good_steal (h : Good σ usr s) {d src : Loc} {c : Option (Callee S)} (hd : σ d = none) (hs : σ src = some c) :
    ∃ s', steal L d src s = .ok () s' ∧ Good (Function.update (Function.update σ src (some none)) d (some c)) usr s' := by
  have hne : d ≠ src := by rintro rfl; rw [hd] at hs; simp at hs
  rcases c with _ | p | v
  · have h1 := (h.fn_empty src).mpr hs
    obtain ⟨s', e, g⟩ := good_put h hd (t := .none) (c := none) rfl
    refine ⟨s', by simp only [steal, h1, e], g.congr ?_⟩
    intro l
    by_cases e1 : l = d
    · subst e1; simp
    · by_cases e2 : l = src
      · subst e2; simp [e1, hs]
      · simp [e1, e2]
  · have h1 := h.fn_ptr hs
    obtain ⟨s1, e1, g1⟩ := good_put h hd (t := .ptr p) (c := some (.ptr p)) rfl
    obtain ⟨s2, e2, g2⟩ := good_drop g1 (l := src) (by rw [Function.update_of_ne hne.symm, hs]; simp)
    obtain ⟨s3, e3, g3⟩ := good_put g2 (l := src) (t := .none) (c := none) (by simp) rfl
    refine ⟨s3, by simp [steal, h1, e1, e2, e3], g3.congr ?_⟩
    intro l
    by_cases e1 : l = d
    · subst e1; simp [hne]
    · by_cases e2 : l = src
      · subst e2; simp [e1]
      · simp [e1, e2]
  · obtain ⟨pl, a, h1, h2, h3⟩ := h.fn_obj hs
    cases pl with
    | inlineCopied => exact absurd rfl h2
    | inlineMoved =>
      obtain ⟨s1, e1, g1⟩ := good_moveObj L h hd hs (pl := .inlineMoved) (by simp)
      obtain ⟨s2, e2, g2⟩ := good_drop g1 (l := src) (by rw [Function.update_of_ne hne.symm]; simp)
      obtain ⟨s3, e3, g3⟩ := good_put g2 (l := src) (t := .none) (c := none) (by simp) rfl
      refine ⟨s3, by simp [steal, h1, e1, e2, e3], g3.congr ?_⟩
      intro l
      by_cases x1 : l = d
      · subst x1; simp [hne]
      · by_cases x2 : l = src
        · subst x2; simp [x1]
        · simp [x1, x2]
    | heap =>
      have hfd : s.fn d = none := (h.fn_none d).mpr hd
      refine ⟨{ s with fn := Function.update (Function.update s.fn d (some (.obj .heap a))) src (some .none) }, by simp [steal, h1, hfd, hne], ?_⟩
      refine ⟨?_, ?_, ?_, ?_, h.usr, h.nocopy⟩
      · intro k
        by_cases hk : k = d
        · subst hk
          simp only [Function.update_of_ne hne, Function.update_self]
          exact ⟨by simp, h3⟩
        · by_cases hk2 : k = src
          · subst hk2; simp [hk, Holds]
          · simp only [Function.update_of_ne hk, Function.update_of_ne hk2]; exact h.val k
      · intro k k' p p' b e1 e2
        simp only [Function.update_apply] at e1 e2
        by_cases k1 : k = src
        · rw [if_pos k1] at e1; simp at e1
        by_cases k2 : k' = src
        · rw [if_pos k2] at e2; simp at e2
        rw [if_neg k1] at e1
        rw [if_neg k2] at e2
        by_cases k3 : k = d
        · by_cases k4 : k' = d
          · rw [k3, k4]
          · rw [if_pos k3] at e1
            rw [if_neg k4] at e2
            simp only [Option.some.injEq, Tgt.obj.injEq] at e1
            rw [← e1.2] at e2
            exact absurd (h.inj _ _ _ _ _ e2 h1) k2
        · by_cases k4 : k' = d
          · rw [if_neg k3] at e1
            rw [if_pos k4] at e2
            simp only [Option.some.injEq, Tgt.obj.injEq] at e2
            rw [← e2.2] at e1
            exact absurd (h.inj _ _ _ _ _ e1 h1) k1
          · rw [if_neg k3] at e1
            rw [if_neg k4] at e2
            exact h.inj _ _ _ _ _ e1 e2
      · intro b hb
        obtain ⟨k, p, hk⟩ := h.own b hb
        by_cases e : k = src
        · rw [e, h1] at hk
          simp only [Option.some.injEq, Tgt.obj.injEq] at hk
          exact ⟨d, .heap, by simp only [Function.update_of_ne hne, Function.update_self]; rw [hk.2]⟩
        · have : k ≠ d := by rintro rfl; rw [hfd] at hk; simp at hk
          exact ⟨k, p, by simp only [Function.update_of_ne this, Function.update_of_ne e]; exact hk⟩
      · intro k p b e1
        simp only [Function.update_apply] at e1
        split_ifs at e1
        · simp at e1
        · simp only [Option.some.injEq, Tgt.obj.injEq] at e1
          rw [← e1.2]
          exact h.lt _ _ _ h1
        · exact h.lt _ _ _ e1

theorem good_swap (h : Good σ usr s) {a b : Loc} {c d : Option (Callee S)} (ha : σ a = some c) (hb : σ b = some d)
    (hab : a ≠ b) (h2 : σ .tmp2 = none) :
    ∃ s', swap L a b s = .ok () s' ∧ Good (Function.update (Function.update σ a (some d)) b (some c)) usr s' := by
  have ha2 : a ≠ .tmp2 := by rintro rfl; rw [h2] at ha; simp at ha
  have hb2 : b ≠ .tmp2 := by rintro rfl; rw [h2] at hb; simp at hb
  obtain ⟨s1, e1, g1⟩ := good_steal L h h2 ha
  obtain ⟨s2, e2, g2⟩ := good_drop g1 (l := a) (by simp [ha2])
  obtain ⟨s3, e3, g3⟩ := good_steal L g2 (d := a) (src := b) (c := d) (by simp) (by simp [hab.symm, hb2, hb])
  obtain ⟨s4, e4, g4⟩ := good_drop g3 (l := b) (by simp [hab.symm])
  obtain ⟨s5, e5, g5⟩ := good_steal L g4 (d := b) (src := .tmp2) (c := c) (by simp) (by simp [hb2.symm, ha2.symm])
  obtain ⟨s6, e6, g6⟩ := good_drop g5 (l := .tmp2) (by simp [hb2.symm])
  refine ⟨s6, by simp [swap, e1, e2, e3, e4, e5, e6], g6.congr ?_⟩
  intro l
  by_cases x1 : l = .tmp2
  · subst x1; simp [hb2.symm, ha2.symm, h2]
  · by_cases x2 : l = b
    · subst x2; simp [x1]
    · by_cases x3 : l = a
      · subst x3; simp [x1, x2]
      · simp [x1, x2, x3]

end Itlib.UFunction
