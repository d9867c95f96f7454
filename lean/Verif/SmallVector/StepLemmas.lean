import Verif.SmallVector.OpLemmas

/-! # Each call refines the specification (proof engineering) -/
namespace Itlib.SmallVector
open Itlib Spec
variable {α : Type}
variable {C : Ctx α} {h h' : Home} {k k' : Nat} {nx : Nat} {g : List (Buf α)}

/-- what erasing does, in the words of the specification -/
theorem erase_st (E : Elem α) {xs : List α} {first last : Nat} (hG : Good C h k xs nx g) (h1 : first ≤ last)
    (h2 : last ≤ xs.length) (hn : first = last → first = xs.length ∨ moves C.P.N C.P.R xs.length h) :
    ∃ k' nx' g', shrinkAt C.P E first (last - first) (st C h k xs nx g) =
        .ok first (st C (if xs.take first ++ xs.drop last = [] then (if 0 < C.P.R then .stat else h)
          else choose C.P.N C.P.R (xs.take first ++ xs.drop last).length h) k' (xs.take first ++ xs.drop last) nx' g') ∧
      Good C (if xs.take first ++ xs.drop last = [] then (if 0 < C.P.R then .stat else h)
          else choose C.P.N C.P.R (xs.take first ++ xs.drop last).length h) k' (xs.take first ++ xs.drop last) nx' g' := by
  obtain ⟨k', nx', g', e1, e2⟩ := shrinkAt_st E (pos := first) (num := last - first) hG (by omega) (by
    by_cases e : first = last
    · exact Or.inr (hn e)
    · exact Or.inl (by omega))
  have e3 : first + (last - first) = last := by omega
  rw [e3] at e1 e2
  have hl : (xs.take first ++ xs.drop last).length = xs.length - (last - first) := by simp; omega
  have e4 : xs.take first ++ xs.drop last = [] ↔ last - first = xs.length := by
    rw [← List.length_eq_zero_iff, hl]; omega
  refine ⟨k', nx', g', ?_, ?_⟩
  · rw [e1]
    simp only [e4, hl]
    congr 1
    split <;> omega
  · simpa only [e4, hl] using e2

def shrunkS (N s : Nat) : Home → Bool × Home
  | .stat => (false, .stat)
  | .dyn c => if s ≤ N then (true, .stat) else if s = c then (false, .dyn c) else (true, .dyn s)

theorem shrunk_spec {N s : Nat} (hw : WF C h k nx) (hN : N = C.P.N) (hs : h = .stat ∨ s ≠ N) :
    shrunk N s h = shrunkS N s h := by
  subst hN
  cases h with
  | stat => rfl
  | dyn c =>
    have := (hw.own c rfl).2.2
    have hs : s ≠ C.P.N := by simpa using hs
    simp only [shrunk, shrunkS]
    by_cases e1 : s = c
    · have e2 : ¬ s ≤ C.P.N := by omega
      simp only [e1, e1 ▸ e2, if_true, if_false]
    · by_cases e2 : s < C.P.N
      · have e3 : s ≤ C.P.N := by omega
        simp only [e1, e2, e3, if_true, if_false]
      · have e3 : ¬ s ≤ C.P.N := by omega
        simp only [e1, e2, e3, if_false]

/-! ### Access to elements -/

theorem good_set {xs : List α} {i : Nat} {a : α} (hG : Good C h k xs nx g) : Good C h k (xs.set i a) nx g :=
  ⟨hG.N, hG.R, hG.wf, hG.raw, by simpa using hG.len⟩

theorem assign_st {xs : List α} {i : Nat} {a : α} (hi : i < xs.length) (hc : xs.length ≤ h.cap C.P.N) :
    onLoc (loc C.i k h) (·.assign i a) (st C h k xs nx g) = .ok () (st C h k (xs.set i a) nx g) := by
  simp only [st, List.length_set]
  exact onLoc_stB (StaticVector.ofList_assign' hi hc)

theorem loadArg_st {xs : List α} {v : Arg α} {a : α} (hv : argVal xs v = some a) (hc : xs.length ≤ h.cap C.P.N) :
    loadRef (refOf C h k v) (st C h k xs nx g) = .ok a (st C h k xs nx g) := by
  cases v with
  | val b => simp only [argVal, Option.some.injEq] at hv; subst hv; rfl
  | self i =>
    obtain ⟨hi, rfl⟩ := List.getElem?_eq_some_iff.mp hv
    exact loadRef_stB (Buf.ofList_read hi hc)

theorem setAt_st {xs : List α} {i : Nat} {v : Arg α} {a : α} (hv : argVal xs v = some a) (hi : i < xs.length)
    (hc : xs.length ≤ h.cap C.P.N) : setAt i v (st C h k xs nx g) = .ok () (st C h k (xs.set i a) nx g) := by
  simp only [setAt, M.bind_apply, bindRef_st, loadArg_st hv hc, at_st hi hc, M.get_apply]
  exact assign_st hi hc

theorem moveElem_st (E : Elem α) {xs : List α} {i j : Nat} {a : α} (ha : xs[j]? = some a) (hi : i < xs.length)
    (hij : i ≠ j) (hc : xs.length ≤ h.cap C.P.N) :
    moveElem E i j (st C h k xs nx g) = .ok () (st C h k ((xs.set i a).set j (E.mv a)) nx g) := by
  obtain ⟨hj, rfl⟩ := List.getElem?_eq_some_iff.mp ha
  simp only [moveElem, M.bind_apply, at_st hi hc, at_st hj hc, hij, if_false, M.get_apply]
  have e1 : (st C h k xs nx g).v.bgn = loc C.i k h := rfl
  rw [e1, assign_st hi hc]
  exact assign_st (by simpa using hj) (by simpa using hc)

theorem readUp_st {xs : List α} (hc : xs.length ≤ h.cap C.P.N) : ∀ (n p : Nat), p + n = xs.length →
    readUp (loc C.i k h) p n (st C h k xs nx g) = .ok (xs.drop p) (st C h k xs nx g) := by
  intro n
  induction n with
  | zero => intro p h; simp [readUp, List.drop_of_length_le (show xs.length ≤ p by omega)]
  | succ n ih =>
    intro p hp
    have hp' : p < xs.length := by omega
    have e1 : loadRef (.slot (loc C.i k h) p) (st C h k xs nx g) = .ok xs[p] (st C h k xs nx g) :=
      loadRef_stB (Buf.ofList_read hp' hc)
    simp only [readUp, M.bind_apply, e1, ih (p+1) (by omega), M.pure_apply]
    rw [← List.drop_eq_getElem_cons hp']

theorem readDown_st {xs : List α} (hc : xs.length ≤ h.cap C.P.N) : ∀ (p : Nat), p ≤ xs.length →
    readDown (loc C.i k h) p (st C h k xs nx g) = .ok (xs.take p).reverse (st C h k xs nx g) := by
  intro p
  induction p with
  | zero => intro _; simp [readDown]
  | succ p ih =>
    intro hp
    have hp' : p < xs.length := by omega
    have e1 : loadRef (.slot (loc C.i k h) p) (st C h k xs nx g) = .ok xs[p] (st C h k xs nx g) :=
      loadRef_stB (Buf.ofList_read hp' hc)
    simp only [readDown, M.bind_apply, e1, ih (by omega), M.pure_apply]
    rw [List.take_succ_eq_append_getElem hp', List.reverse_append, List.reverse_singleton, List.singleton_append]

theorem forward_st {xs : List α} (hc : xs.length ≤ h.cap C.P.N) :
    forward (st C h k xs nx g) = .ok xs (st C h k xs nx g) := by
  have e1 : (st C h k xs nx g).v.bgn = loc C.i k h := rfl
  have e2 : (st C h k xs nx g).v.endp = loc C.i k h := rfl
  have e3 : (st C h k xs nx g).v.endo = xs.length := rfl
  simp only [forward, M.bind_apply, M.get_apply, e1, e2, e3, if_true]
  simpa using readUp_st hc xs.length 0 (by omega)

theorem backward_st {xs : List α} (hc : xs.length ≤ h.cap C.P.N) :
    backward (st C h k xs nx g) = .ok xs.reverse (st C h k xs nx g) := by
  have e1 : (st C h k xs nx g).v.bgn = loc C.i k h := rfl
  have e2 : (st C h k xs nx g).v.endp = loc C.i k h := rfl
  have e3 : (st C h k xs nx g).v.endo = xs.length := rfl
  simp only [backward, M.bind_apply, M.get_apply, e1, e2, e3, if_true]
  simpa using readDown_st hc xs.length (Nat.le_refl _)

theorem call_st (E : Elem α) {op : Op α} {xs xs' : List α} {r : Reply α} (hG : Good C h k xs nx g) (hT : NoThrow C)
    (hs : Safe C.P.N C.P.R op h xs) (hstep : step C.P.N C.P.R E op h xs = some (r, h', xs')) :
    ∃ k' nx' g', call C.P E op (st C h k xs nx g) = some (r, st C h' k' xs' nx' g') ∧ Good C h' k' xs' nx' g' := by
  cases op with
  | pushBack v =>
    simp only [step, Option.bind_eq_bind, Option.bind_eq_some_iff] at hstep
    obtain ⟨a, ha, hstep⟩ := hstep
    simp only [Option.some.injEq, Prod.mk.injEq] at hstep; obtain ⟨rfl, rfl, rfl⟩ := hstep
    obtain ⟨k', nx', g', e1, e2, _⟩ := pushBack_st E hG hT ha hs
    exact ⟨k', nx', g', by simp [call, exec, e1], e2⟩
  | emplaceBack v =>
    simp only [step, Option.bind_eq_bind, Option.bind_eq_some_iff] at hstep
    obtain ⟨a, ha, hstep⟩ := hstep
    simp only [Option.some.injEq, Prod.mk.injEq] at hstep; obtain ⟨rfl, rfl, rfl⟩ := hstep
    obtain ⟨k', nx', g', e1, e2, _⟩ := emplaceBack_st E hG hT ha hs
    exact ⟨k', nx', g', by simp [call, exec, e1], e2⟩
  | popBack =>
    simp only [step, Option.bind_eq_bind, Option.bind_eq_some_iff] at hstep
    obtain ⟨⟨r1, h1, x1⟩, hst, hstep⟩ := hstep
    simp only [Option.some.injEq, Prod.mk.injEq] at hstep; obtain ⟨rfl, rfl, rfl⟩ := hstep
    by_cases hx : xs = []
    · subst hx
      simp at hst
      obtain ⟨rfl, rfl, rfl⟩ := hst
      refine ⟨k, nx, g, ?_, hG⟩
      simp only [call, exec, popBack, M.bind_apply, size_st, List.length_nil]
      rw [shrinkAt_reject C.P E (by simp)]
      simp
    · have hp : 0 < xs.length := List.length_pos_iff.mpr hx
      have hi : (xs.length : Int) - 1 = ((xs.length - 1 : Nat) : Int) := by omega
      rw [hi] at hst
      have hc1 : (0:Int) ≤ ((xs.length - 1 : Nat) : Int) ∧ ((xs.length - 1 : Nat) : Int) ≤ (xs.length : Int) ∧
        (xs.length : Int) ≤ (xs.length : Int) := by omega
      simp only [hc1, and_self, if_true, Option.some.injEq, Prod.mk.injEq, Int.toNat_natCast] at hst
      obtain ⟨rfl, rfl, rfl⟩ := hst
      obtain ⟨k', nx', g', e1, e2⟩ := erase_st E (first := xs.length - 1) (last := xs.length) hG (by omega) (by omega)
        (by intro h; omega)
      refine ⟨k', nx', g', ?_, e2⟩
      rw [show xs.length - (xs.length - 1) = 1 by omega] at e1
      simp only [call, exec, popBack, M.bind_apply, size_st, hi, e1, M.pure_apply, hx, if_false]
  | insert pos v =>
    simp only [step, Option.bind_eq_bind, Option.bind_eq_some_iff] at hstep
    obtain ⟨a, ha, hstep⟩ := hstep
    by_cases hp : 0 ≤ pos ∧ pos ≤ xs.length
    · simp only [hp, and_self, if_true, Option.some.injEq, Prod.mk.injEq] at hstep; obtain ⟨rfl, rfl, rfl⟩ := hstep
      obtain ⟨p, rfl⟩ : ∃ p : Nat, pos = p := ⟨pos.toNat, by omega⟩
      obtain ⟨k', nx', g', e1, e2, _⟩ := insert_st E hG hT ha (hs hp) (by omega)
      exact ⟨k', nx', g', by simp [call, exec, e1], by simpa using e2⟩
    · simp only [hp, if_false, Option.some.injEq, Prod.mk.injEq] at hstep; obtain ⟨rfl, rfl, rfl⟩ := hstep
      exact ⟨k, nx, g, by simp [call, exec, insert, bindRef_st, growAt_reject C.P E hp], hG⟩
  | insertN pos n v =>
    simp only [step, Option.bind_eq_bind, Option.bind_eq_some_iff] at hstep
    obtain ⟨a, ha, hstep⟩ := hstep
    by_cases hp : 0 ≤ pos ∧ pos ≤ xs.length
    · simp only [hp, and_self, if_true, Option.some.injEq, Prod.mk.injEq] at hstep; obtain ⟨rfl, rfl, rfl⟩ := hstep
      obtain ⟨p, rfl⟩ : ∃ p : Nat, pos = p := ⟨pos.toNat, by omega⟩
      obtain ⟨k', nx', g', e1, e2, _⟩ := insertN_st E (n := n) (pos := p) hG hT ha (by
        have := hs hp
        by_cases hn : n = 0
        · simp only [hn, if_true] at this ⊢
          exact this.imp (fun h => by omega) id
        · simpa only [hn, if_false] using this) (by omega)
      exact ⟨k', nx', g', by simp [call, exec, e1], by simpa using e2⟩
    · simp only [hp, if_false, Option.some.injEq, Prod.mk.injEq] at hstep; obtain ⟨rfl, rfl, rfl⟩ := hstep
      exact ⟨k, nx, g, by simp [call, exec, insertN, bindRef_st, growAt_reject C.P E hp], hG⟩
  | insertRange pos ys =>
    simp only [step] at hstep
    by_cases hp : 0 ≤ pos ∧ pos ≤ xs.length
    · simp only [hp, and_self, if_true, Option.some.injEq, Prod.mk.injEq] at hstep; obtain ⟨rfl, rfl, rfl⟩ := hstep
      obtain ⟨p, rfl⟩ : ∃ p : Nat, pos = p := ⟨pos.toNat, by omega⟩
      obtain ⟨k', nx', g', e1, e2, _⟩ := insertRange_st E (ys := ys) hG hT (by
        intro hy
        exact (hs hp hy).imp (fun h => by omega) id) (show p ≤ xs.length by omega)
      exact ⟨k', nx', g', by simp [call, exec, e1], by simpa using e2⟩
    · simp only [hp, if_false, Option.some.injEq, Prod.mk.injEq] at hstep; obtain ⟨rfl, rfl, rfl⟩ := hstep
      exact ⟨k, nx, g, by simp [call, exec, insertRange, growAt_reject C.P E hp], hG⟩
  | erase pos =>
    simp only [step] at hstep
    by_cases hp : 0 ≤ pos ∧ pos ≤ pos + 1 ∧ pos + 1 ≤ xs.length
    · simp only [hp, and_self, if_true, Option.some.injEq, Prod.mk.injEq] at hstep; obtain ⟨rfl, rfl, rfl⟩ := hstep
      obtain ⟨p, rfl⟩ : ∃ p : Nat, pos = p := ⟨pos.toNat, by omega⟩
      obtain ⟨k', nx', g', e1, e2⟩ := erase_st E (first := p) (last := p + 1) hG (by omega) (by omega) (by intro h; omega)
      rw [show p + 1 - p = 1 by omega] at e1
      have e3 : ((p : Int) + 1).toNat = p + 1 := by omega
      simp only [e3, Int.toNat_natCast]
      exact ⟨k', nx', g', by simp only [call, exec, erase, M.bind_apply, e1, M.pure_apply], e2⟩
    · simp only [hp, if_false, Option.some.injEq, Prod.mk.injEq] at hstep; obtain ⟨rfl, rfl, rfl⟩ := hstep
      refine ⟨k, nx, g, ?_, hG⟩
      simp only [call, exec, erase, M.bind_apply]
      rw [shrinkAt_reject C.P E (by intro h; apply hp; omega)]
  | eraseRange f l =>
    simp only [step] at hstep
    by_cases hp : 0 ≤ f ∧ f ≤ l ∧ l ≤ xs.length
    · simp only [hp, and_self, if_true, Option.some.injEq, Prod.mk.injEq] at hstep; obtain ⟨rfl, rfl, rfl⟩ := hstep
      obtain ⟨p, rfl⟩ : ∃ p : Nat, f = p := ⟨f.toNat, by omega⟩
      obtain ⟨q, rfl⟩ : ∃ q : Nat, l = q := ⟨l.toNat, by omega⟩
      obtain ⟨k', nx', g', e1, e2⟩ := erase_st E (first := p) (last := q) hG (by omega) (by omega) (by
        intro h
        exact (hs hp (by omega)).imp (fun h => by omega) id)
      simp only [Int.toNat_natCast]
      refine ⟨k', nx', g', ?_, e2⟩
      have e3 : ¬ ((p : Int) > q) := by omega
      have e4 : ((q : Int) - p).toNat = q - p := by omega
      simp only [call, exec, eraseRange, e3, if_false, e4, M.bind_apply, e1, M.pure_apply]
    · simp only [hp, if_false, Option.some.injEq, Prod.mk.injEq] at hstep; obtain ⟨rfl, rfl, rfl⟩ := hstep
      refine ⟨k, nx, g, ?_, hG⟩
      simp only [call, exec, eraseRange, M.bind_apply]
      by_cases e3 : f > l
      · simp [e3]
      · simp only [e3, if_false]
        rw [shrinkAt_reject C.P E (by intro h; apply hp; omega)]
  | clear =>
    simp only [step, Option.some.injEq, Prod.mk.injEq] at hstep; obtain ⟨rfl, rfl, rfl⟩ := hstep
    obtain ⟨g', e1, e2⟩ := clear_st hG
    exact ⟨k, nx, g', by simp [call, exec, e1], e2⟩
  | resize n =>
    simp only [step, Option.some.injEq, Prod.mk.injEq] at hstep; obtain ⟨rfl, rfl, rfl⟩ := hstep
    obtain ⟨k', nx', g', e1, e2⟩ := resizeV_st E (d := n) (v := .val E.dflt) (a := E.dflt) hG hT rfl (Or.inr ⟨_, rfl⟩)
    exact ⟨k', nx', g', by simp [call, exec, e1], e2⟩
  | resizeV n v =>
    simp only [step, Option.bind_eq_bind, Option.bind_eq_some_iff] at hstep
    obtain ⟨a, ha, hstep⟩ := hstep
    simp only [Option.some.injEq, Prod.mk.injEq] at hstep; obtain ⟨rfl, rfl, rfl⟩ := hstep
    obtain ⟨k', nx', g', e1, e2⟩ := resizeV_st E (d := n) hG hT ha hs
    exact ⟨k', nx', g', by simp [call, exec, e1], e2⟩
  | assignN n v =>
    simp only [step, Option.bind_eq_bind, Option.bind_eq_some_iff] at hstep
    obtain ⟨a, ha, hstep⟩ := hstep
    simp only [Option.some.injEq, Prod.mk.injEq] at hstep; obtain ⟨rfl, rfl, rfl⟩ := hstep
    obtain ⟨k', nx', g', e1, e2⟩ := assignN_st (d := n) hG hT ha hs
    exact ⟨k', nx', g', by simp [call, exec, e1], e2⟩
  | assignRange ys =>
    simp only [step, Option.some.injEq, Prod.mk.injEq] at hstep; obtain ⟨rfl, rfl, rfl⟩ := hstep
    obtain ⟨k', nx', g', e1, e2⟩ := assignRange_st (ys := ys) hG hT
    exact ⟨k', nx', g', by simp [call, exec, e1], e2⟩
  | reserve n =>
    simp only [step, Option.some.injEq, Prod.mk.injEq] at hstep; obtain ⟨rfl, rfl, rfl⟩ := hstep
    obtain ⟨k', nx', g', e1, e2, _⟩ := reserve_st E (d := n) hG hT.2
    exact ⟨k', nx', g', by simp [call, exec, e1], e2⟩
  | shrinkToFit =>
    obtain ⟨k', nx', g', e1, e2⟩ := shrinkToFit_st E hG hT.2
    refine ⟨k', nx', g', ?_⟩
    rw [shrunk_spec hG.wf rfl hs] at e1 e2
    simp only [step] at hstep
    cases h with
    | stat =>
      simp only [Option.some.injEq, Prod.mk.injEq] at hstep; obtain ⟨rfl, rfl, rfl⟩ := hstep
      exact ⟨by simp [call, exec, e1, shrunkS], e2⟩
    | dyn c =>
      simp only [shrunkS] at hstep e1 e2
      split at hstep
      · rename_i hl
        simp only [Option.some.injEq, Prod.mk.injEq] at hstep; obtain ⟨rfl, rfl, rfl⟩ := hstep
        simp only [hl, if_true] at e1 e2
        exact ⟨by simp [call, exec, e1], e2⟩
      · rename_i hl
        simp only [hl, if_false] at e1 e2
        split at hstep
        · rename_i hl
          simp only [Option.some.injEq, Prod.mk.injEq] at hstep; obtain ⟨rfl, rfl, rfl⟩ := hstep
          simp only [hl, if_true] at e1 e2
          exact ⟨by simp [call, exec, e1], e2⟩
        · rename_i hl
          simp only [Option.some.injEq, Prod.mk.injEq] at hstep; obtain ⟨rfl, rfl, rfl⟩ := hstep
          simp only [hl, if_false] at e1 e2
          exact ⟨by simp [call, exec, e1], e2⟩
  | revertToStatic =>
    obtain ⟨k', nx', g', e1, e2⟩ := revertToStatic_st E hG hT.2
    refine ⟨k', nx', g', ?_⟩
    rw [shrunk_spec hG.wf rfl hs] at e1 e2
    simp only [step] at hstep
    split at hstep
    · rename_i hl
      simp only [Option.some.injEq, Prod.mk.injEq] at hstep; obtain ⟨rfl, rfl, rfl⟩ := hstep
      have hh : (if xs.length ≤ C.P.N then (shrunkS C.P.N xs.length h).2 else h) = .stat := by
        rcases hl with rfl | hl
        · simp [shrunkS]
        · simp only [hl, if_true]; cases h <;> simp [shrunkS, hl]
      rw [hh] at e1 e2
      exact ⟨by simp [call, exec, e1, hl], e2⟩
    · rename_i hl
      simp only [Option.some.injEq, Prod.mk.injEq] at hstep; obtain ⟨rfl, rfl, rfl⟩ := hstep
      have h1 : ¬ xs.length ≤ C.P.N := fun h => hl (Or.inr h)
      simp only [h1, if_false, or_false] at e1 e2
      exact ⟨by simp [call, exec, e1]; simpa [h1] using hl, e2⟩
  | get i =>
    simp only [step, Option.bind_eq_bind, Option.bind_eq_some_iff] at hstep
    obtain ⟨a, ha, hstep⟩ := hstep
    simp only [Option.some.injEq, Prod.mk.injEq] at hstep; obtain ⟨rfl, rfl, rfl⟩ := hstep
    obtain ⟨hi, rfl⟩ := List.getElem?_eq_some_iff.mp ha
    exact ⟨k, nx, g, by simp [call, exec, at_st hi hG.len], hG⟩
  | getBack =>
    simp only [step, Option.bind_eq_bind, Option.bind_eq_some_iff] at hstep
    obtain ⟨a, ha, hstep⟩ := hstep
    simp only [Option.some.injEq, Prod.mk.injEq] at hstep; obtain ⟨rfl, rfl, rfl⟩ := hstep
    have hx : xs ≠ [] := by rintro rfl; simp at ha
    rw [List.getLast?_eq_some_getLast hx] at ha
    simp only [Option.some.injEq] at ha
    subst ha
    exact ⟨k, nx, g, by simp [call, exec, back_st hx hG.len], hG⟩
  | front =>
    simp only [step, Option.bind_eq_bind, Option.bind_eq_some_iff] at hstep
    obtain ⟨a, ha, hstep⟩ := hstep
    simp only [Option.some.injEq, Prod.mk.injEq] at hstep; obtain ⟨rfl, rfl, rfl⟩ := hstep
    rw [List.head?_eq_getElem?] at ha
    obtain ⟨hi, rfl⟩ := List.getElem?_eq_some_iff.mp ha
    exact ⟨k, nx, g, by simp [call, exec, front, at_st hi hG.len], hG⟩
  | set i v =>
    simp only [step, Option.bind_eq_bind, Option.bind_eq_some_iff] at hstep
    obtain ⟨a, ha, hstep⟩ := hstep
    split at hstep
    · rename_i hi
      simp only [Option.some.injEq, Prod.mk.injEq] at hstep; obtain ⟨rfl, rfl, rfl⟩ := hstep
      exact ⟨k, nx, g, by simp [call, exec, setAt_st ha hi hG.len], good_set hG⟩
    · exact absurd hstep (by simp)
  | moveElem i j =>
    simp only [step, Option.bind_eq_bind, Option.bind_eq_some_iff] at hstep
    obtain ⟨a, ha, hstep⟩ := hstep
    split at hstep
    · rename_i hi
      simp only [Option.some.injEq, Prod.mk.injEq] at hstep; obtain ⟨rfl, rfl, rfl⟩ := hstep
      exact ⟨k, nx, g, by simp [call, exec, moveElem_st E ha hi.1 hi.2 hG.len], good_set (good_set hG)⟩
    · exact absurd hstep (by simp)
  | isEmpty =>
    simp only [step, Option.some.injEq, Prod.mk.injEq] at hstep; obtain ⟨rfl, rfl, rfl⟩ := hstep
    refine ⟨k, nx, g, ?_, hG⟩
    cases xs <;> simp [call, exec, isEmpty, st]
  | forward =>
    simp only [step, Option.some.injEq, Prod.mk.injEq] at hstep; obtain ⟨rfl, rfl, rfl⟩ := hstep
    exact ⟨k, nx, g, by simp [call, exec, forward_st hG.len], hG⟩
  | backward =>
    simp only [step, Option.some.injEq, Prod.mk.injEq] at hstep; obtain ⟨rfl, rfl, rfl⟩ := hstep
    exact ⟨k, nx, g, by simp [call, exec, backward_st hG.len], hG⟩
  | size =>
    simp only [step, Option.some.injEq, Prod.mk.injEq] at hstep; obtain ⟨rfl, rfl, rfl⟩ := hstep
    exact ⟨k, nx, g, by simp [call, exec], hG⟩
  | capacity =>
    simp only [step, Option.some.injEq, Prod.mk.injEq] at hstep; obtain ⟨rfl, rfl, rfl⟩ := hstep
    exact ⟨k, nx, g, by simp [call, exec, st], hG⟩
  | isStatic =>
    simp only [step, Option.some.injEq, Prod.mk.injEq] at hstep; obtain ⟨rfl, rfl, rfl⟩ := hstep
    exact ⟨k, nx, g, by simp [call, exec, st], hG⟩

theorem run_st (E : Elem α) (hT : NoThrow C) : ∀ (ops : List (Op α)) {h h' : Home} {k nx : Nat} {g : List (Buf α)}
    {xs xs' : List α} {rs : List (Reply α)}, Good C h k xs nx g → SafeRun C.P.N C.P.R E ops h xs →
    Spec.run C.P.N C.P.R E ops h xs = some (rs, h', xs') →
    ∃ k' nx' g', run C.P E ops (st C h k xs nx g) = some (rs, st C h' k' xs' nx' g') ∧ Good C h' k' xs' nx' g' := by
  intro ops
  induction ops with
  | nil =>
    intro h h' k nx g xs xs' rs hG _ hr
    simp only [Spec.run, Option.some.injEq, Prod.mk.injEq] at hr; obtain ⟨rfl, rfl, rfl⟩ := hr
    exact ⟨k, nx, g, rfl, hG⟩
  | cons op ops ih =>
    intro h h' k nx g xs xs' rs hG hs hr
    simp only [Spec.run, Option.bind_eq_bind, Option.bind_eq_some_iff] at hr
    obtain ⟨⟨r, h1, xs1⟩, e1, ⟨rs1, h2, xs2⟩, e2, e3⟩ := hr
    simp only [Option.some.injEq, Prod.mk.injEq] at e3
    obtain ⟨rfl, rfl, rfl⟩ := e3
    simp only [SafeRun, e1] at hs
    obtain ⟨k1, nx1, g1, f1, f2⟩ := call_st E hG hT hs.1 e1
    obtain ⟨k2, nx2, g2, f3, f4⟩ := ih f2 hs.2 e2
    exact ⟨k2, nx2, g2, by simp [run, f1, f3], f4⟩

/-- A new vector is in normal form. -/
theorem new_st (P : Params) : (new P : St α) = st ⟨P, 0, 0, fun _ => none, none, none⟩ .stat 0 [] 0 [] := by
  simp [new, st, stB, loc, putStat, putHeap, Home.cap, Buf.ofList_nil]

theorem new_good {P : Params} (hN : 0 < P.N) (hR : P.R ≤ P.N + 1) :
    Good (α := α) ⟨P, 0, 0, fun _ => none, none, none⟩ .stat 0 [] 0 [] :=
  ⟨hN, hR, ⟨fun _ _ => rfl, by intro c hc; cases hc⟩, by intro b hb; simp at hb, by simp⟩

/-! ### Several vectors -/

/-- the fields of vector `i` with value `v`, whose heap block, if any, is `k` -/
def vecRep (P : Params) (i k : Nat) (v : V α) : Vec α :=
  ⟨i, loc i k v.home, loc i k v.home, v.xs.length, v.home.cap P.N, v.al,
    putStat v.home (Buf.ofList (v.home.cap P.N) v.xs) (Buf.fresh P.N)⟩

/-- memory `m` holds exactly the vectors of `y`, vector `i` owning block `blk i` if it is on the heap, and the blocks of `L`,
which belong to no vector -/
structure MRep (P : Params) (L : Nat → Option (Block α)) (y : Sys α) (blk : Nat → Nat) (m : Mem α) : Prop where
  vec : ∀ i, m.vec i = (y i).map (vecRep P i (blk i))
  own : ∀ i v c, y i = some v → v.home = .dyn c → m.heap (blk i) = some ⟨v.al, Buf.ofList c v.xs⟩ ∧ P.N ≤ c
  only : ∀ k b, m.heap k = some b → (∃ i v c, y i = some v ∧ v.home = .dyn c ∧ blk i = k) ∨ L k = some b
  keep : ∀ k b, L k = some b → m.heap k = some b ∧ ∀ i v c, y i = some v → v.home = .dyn c → blk i ≠ k
  inj : ∀ i j v w c d, y i = some v → y j = some w → v.home = .dyn c → w.home = .dyn d → blk i = blk j → i = j
  free : ∀ k, m.next ≤ k → m.heap k = none
  raw : AllRaw m.graves
  ct : m.ctick = none
  at' : m.atick = none
  len : ∀ i v, y i = some v → v.xs.length ≤ v.home.cap P.N

variable {P : Params} {L : Nat → Option (Block α)} {y : Sys α} {blk : Nat → Nat} {m : Mem α}

/-- the blocks of the others -/
def others (P : Params) (m : Mem α) (i k : Nat) (v : V α) : Ctx α :=
  ⟨P, i, v.al, match v.home with | .stat => m.heap | .dyn _ => Function.update m.heap k none, none, none⟩

theorem view_st (hM : MRep P L y blk m) {i : Nat} {v : V α} (hv : y i = some v) :
    m.view (vecRep P i (blk i) v) = st (others P m i (blk i) v) v.home (blk i) v.xs m.next m.graves := by
  simp only [Mem.view, vecRep, st, stB, others, hM.ct, hM.at', St.mk.injEq, true_and, and_true]
  cases hh : v.home with
  | stat => rfl
  | dyn c =>
    simp only [putHeap, Function.update_idem, Home.cap]
    rw [← (hM.own i v c hv hh).1]
    simp

theorem split_good (hN : 0 < P.N) (hR : P.R ≤ P.N + 1) (hM : MRep P L y blk m) {i : Nat} {v : V α} (hv : y i = some v) :
    Good (others P m i (blk i) v) v.home (blk i) v.xs m.next m.graves := by
  refine ⟨hN, hR, ⟨?_, ?_⟩, hM.raw, hM.len i v hv⟩
  · intro j hj
    have := hM.free j hj
    simp only [others]
    cases v.home with
    | stat => exact this
    | dyn c => simp [Function.update_apply, this]
  · intro c hc
    have h1 := hM.own i v c hv hc
    refine ⟨?_, ?_, h1.2⟩
    · by_cases hlt : blk i < m.next
      · exact hlt
      · rw [hM.free _ (by omega)] at h1; simp at h1
    · simp [others, hc]

theorem split_rest (hM : MRep P L y blk m) {i : Nat} {v : V α} (hv : y i = some v) :
    MRep P L (y.put i none) blk { m with vec := Function.update m.vec i none, heap := (others P m i (blk i) v).h0 } := by
  have hput : ∀ j w, (y.put i none) j = some w → j ≠ i ∧ y j = some w := by
    intro j w hj
    simp only [Sys.put] at hj
    split at hj
    · simp at hj
    · exact ⟨‹_›, hj⟩
  refine ⟨?_, ?_, ?_, ?_, ?_, ?_, hM.raw, hM.ct, hM.at', ?_⟩
  · intro j
    simp only [Sys.put, Function.update_apply]
    split
    · rfl
    · exact hM.vec j
  · intro j w c hj hc
    obtain ⟨hji, hj⟩ := hput j w hj
    have := hM.own j w c hj hc
    refine ⟨?_, this.2⟩
    simp only [others]
    cases hh : v.home with
    | stat => exact this.1
    | dyn d =>
      have hne : blk j ≠ blk i := fun e => hji (hM.inj j i w v c d hj hv hc hh e)
      simp only [Function.update_apply, hne, if_false, this.1]
  · intro k b hk
    have hk' : m.heap k = some b := by
      simp only [others] at hk
      cases hh : v.home with
      | stat => simpa [hh] using hk
      | dyn d =>
        simp only [hh, Function.update_apply] at hk
        split at hk
        · simp at hk
        · exact hk
    rcases hM.only k b hk' with ⟨j, w, c, h1, h2, h3⟩ | hL
    · by_cases hji : j = i
      · subst hji
        rw [hv] at h1; simp only [Option.some.injEq] at h1; subst h1
        simp [others, h2, h3] at hk
      · exact Or.inl ⟨j, w, c, by simp [Sys.put, hji, h1], h2, h3⟩
    · exact Or.inr hL
  · intro k b hk
    obtain ⟨h1, h2⟩ := hM.keep k b hk
    refine ⟨?_, fun j w c hj => h2 j w c (hput j w hj).2⟩
    simp only [others]
    cases hh : v.home with
    | stat => exact h1
    | dyn d =>
      have hne : k ≠ blk i := fun e => h2 i v d hv hh e.symm
      simp only [Function.update_apply, hne, if_false, h1]
  · intro a b v' w' c d h1 h2
    exact hM.inj a b v' w' c d (hput _ _ h1).2 (hput _ _ h2).2
  · intro k hk
    have := hM.free k hk
    simp only [others]
    cases v.home with
    | stat => exact this
    | dyn c => simp [Function.update_apply, this]
  · intro j w hj
    exact hM.len j w (hput j w hj).2

theorem join {C : Ctx α} {i : Nat} {xs : List α} (hM : MRep P L y blk m) (hy : y i = none) (hC : C.P = P)
    (hi : C.i = i) (hh0 : C.h0 = m.heap) (hT : NoThrow C) (hG : Good C h k xs nx g) :
    MRep P L (y.put i (some ⟨C.al, h, xs⟩)) (Function.update blk i k)
      ⟨Function.update m.vec i (some (st C h k xs nx g).v), (st C h k xs nx g).heap, nx, g, none, none⟩ := by
  subst hC hi
  have hput : ∀ j w, (y.put C.i (some ⟨C.al, h, xs⟩)) j = some w → (j = C.i ∧ w = ⟨C.al, h, xs⟩) ∨ (j ≠ C.i ∧ y j = some w) := by
    intro j w hj
    simp only [Sys.put] at hj
    split at hj
    · simp at hj; exact Or.inl ⟨‹_›, hj.symm⟩
    · exact Or.inr ⟨‹_›, hj⟩
  have hheap : (st C h k xs nx g).heap = putHeap h k C.al (Buf.ofList (h.cap C.P.N) xs) m.heap := by
    rw [← hh0]; rfl
  refine ⟨?_, ?_, ?_, ?_, ?_, ?_, hG.raw, rfl, rfl, ?_⟩
  · intro j
    simp only [Sys.put, Function.update_apply]
    split
    · rename_i e; subst e; rfl
    · exact hM.vec j
  · intro j w c hj hc
    simp only [hheap]
    rcases hput j w hj with ⟨rfl, rfl⟩ | ⟨hji, hj⟩
    · simp only at hc
      subst hc
      exact ⟨by simp [putHeap, Home.cap], (hG.wf.own c rfl).2.2⟩
    · have := hM.own j w c hj hc
      refine ⟨?_, this.2⟩
      simp only [Function.update_apply, hji, if_false]
      cases h with
      | stat => exact this.1
      | dyn d =>
        have h1 := (hG.wf.own d rfl).2.1
        rw [hh0] at h1
        have hne : blk j ≠ k := by rintro rfl; rw [h1] at this; simp at this
        simp only [putHeap, Function.update_apply, hne, if_false, this.1]
  · intro q b hq
    simp only [hheap] at hq
    have hold : ∀ q b, m.heap q = some b → (∃ i v c, (y.put C.i (some ⟨C.al, h, xs⟩)) i = some v ∧ v.home = .dyn c ∧
        Function.update blk C.i k i = q) ∨ L q = some b := by
      intro q b hq
      rcases hM.only q b hq with ⟨j, w, c, h1, h2, h3⟩ | hL
      · have hji : j ≠ C.i := by rintro rfl; rw [hy] at h1; simp at h1
        exact Or.inl ⟨j, w, c, by simp [Sys.put, hji, h1], h2, by simp [hji, h3]⟩
      · exact Or.inr hL
    cases h with
    | stat => exact hold q b hq
    | dyn d =>
      simp only [putHeap, Function.update_apply] at hq
      split at hq
      · rename_i e
        exact Or.inl ⟨C.i, ⟨C.al, .dyn d, xs⟩, d, by simp [Sys.put], rfl, by simp [e]⟩
      · exact hold q b hq
  · intro q b hq
    obtain ⟨h1, h2⟩ := hM.keep q b hq
    have hkq : ∀ d, h = .dyn d → k ≠ q := by
      rintro d rfl rfl
      have h3 := (hG.wf.own d rfl).2.1
      rw [hh0, h1] at h3; simp at h3
    refine ⟨?_, fun j w c hj hc => ?_⟩
    · simp only [hheap]
      cases h with
      | stat => exact h1
      | dyn d => simp only [putHeap, Function.update_apply, Ne.symm (hkq d rfl), if_false, h1]
    · rcases hput j w hj with ⟨rfl, rfl⟩ | ⟨hji, hj⟩
      · simp only [Function.update_self]; exact hkq c hc
      · simp only [Function.update_apply, hji, if_false]; exact h2 j w c hj hc
  · intro a b v w c d h1 h2 h3 h4 h5
    rcases hput a v h1 with ⟨rfl, rfl⟩ | ⟨ha, h1'⟩ <;> rcases hput b w h2 with ⟨rfl, rfl⟩ | ⟨hb, h2'⟩
    · rfl
    · exfalso
      simp only at h3; subst h3
      have e1 := (hG.wf.own c rfl).2.1
      rw [hh0] at e1
      have e2 := (hM.own b w d h2' h4).1
      simp [hb] at h5
      rw [← h5, e1] at e2; simp at e2
    · exfalso
      simp only at h4; subst h4
      have e1 := (hG.wf.own d rfl).2.1
      rw [hh0] at e1
      have e2 := (hM.own a v c h1' h3).1
      simp [ha] at h5
      rw [h5, e1] at e2; simp at e2
    · simp [ha, hb] at h5
      exact hM.inj a b v w c d h1' h2' h3 h4 h5
  · intro q hq
    simp only [hheap]
    have := hG.wf.free q hq
    rw [hh0] at this
    cases h with
    | stat => exact this
    | dyn d =>
      have h1 := (hG.wf.own d rfl).1
      have hne : q ≠ k := by simp only at hq; omega
      simp only [putHeap, Function.update_apply, hne, if_false, this]
  · intro j w hj
    rcases hput j w hj with ⟨rfl, rfl⟩ | ⟨hji, hj⟩
    · exact hG.len
    · exact hM.len j w hj

theorem put_put (y : Sys α) (i : Nat) (v w : Option (V α)) : (y.put i v).put i w = y.put i w := by
  funext j; simp only [Sys.put]; split <;> rfl

/-- rejoining after a call on vector `i` -/
theorem rejoin {i : Nat} {v : V α} {xs : List α} (hM : MRep P L y blk m) (hv : y i = some v)
    (hG : Good (others P m i (blk i) v) h k xs nx g) :
    MRep P L (y.put i (some ⟨v.al, h, xs⟩)) (Function.update blk i k)
      (m.upd i (st (others P m i (blk i) v) h k xs nx g)) := by
  have := join (C := others P m i (blk i) v) (i := i) (split_rest hM hv) (by simp [Sys.put]) rfl rfl rfl ⟨rfl, rfl⟩ hG
  rw [put_put] at this
  simp only [Function.update_idem] at this
  exact this

theorem at'_ok {β : Type} {f : M (St α) β} {b : β} {s : St α} {i : Nat} {v : V α} (hM : MRep P L y blk m) (hv : y i = some v)
    (hf : f (st (others P m i (blk i) v) v.home (blk i) v.xs m.next m.graves) = .ok b s) :
    at' i f m = .ok b (m.upd i s) := by
  simp only [at', hM.vec i, hv, Option.map_some, view_st hM hv, hf]

theorem upd_self {i : Nat} {v : V α} (hM : MRep P L y blk m) (hv : y i = some v) :
    m.upd i (st (others P m i (blk i) v) v.home (blk i) v.xs m.next m.graves) = m := by
  rw [← view_st hM hv]
  have : m.vec i = some (vecRep P i (blk i) v) := by rw [hM.vec i, hv]; rfl
  simp only [Mem.upd, Mem.view, ← this, Function.update_eq_self]

theorem at'_read {β : Type} {f : M (St α) β} {b : β} {i : Nat} {v : V α} (hM : MRep P L y blk m) (hv : y i = some v)
    (hf : f (st (others P m i (blk i) v) v.home (blk i) v.xs m.next m.graves) =
      .ok b (st (others P m i (blk i) v) v.home (blk i) v.xs m.next m.graves)) :
    at' i f m = .ok b m := by
  rw [at'_ok hM hv hf, upd_self hM hv]

theorem elems_mrep {j : Nat} {w : V α} (hM : MRep P L y blk m) (hw : y j = some w) : at' j elems m = .ok w.xs m :=
  at'_read hM hw (elems_st (hM.len j w hw))

/-- a system with a fresh, empty vector -/
theorem construct_mrep (hN : 0 < P.N) (hR : P.R ≤ P.N + 1) {i al : Nat} (hM : MRep P L y blk m) (hy : y i = none) :
    ∃ m', construct P i al m = .ok () m' ∧ MRep P L (y.put i (some ⟨al, .stat, []⟩)) blk m' := by
  have hvi : m.vec i = none := by rw [hM.vec i, hy]; rfl
  have := join (C := ⟨P, i, al, m.heap, none, none⟩) (i := i) (h := .stat) (k := blk i) (xs := []) (nx := m.next) (g := m.graves)
    hM hy rfl rfl rfl ⟨rfl, rfl⟩ ⟨hN, hR, ⟨hM.free, by intro c hc; cases hc⟩, hM.raw, by simp⟩
  rw [Function.update_eq_self] at this
  refine ⟨_, ?_, this⟩
  simp only [construct, M.mem, hvi]
  simp [st, stB, loc, putStat, putHeap, Home.cap, Buf.ofList_nil, hM.ct, hM.at']

theorem ctorRest_mrep {i al : Nat} {f : M (St α) Unit} {xs : List α}
    (hM : MRep P L (y.put i (some ⟨al, .stat, []⟩)) blk m)
    (hf : ∃ k nx g, f (st (others P m i (blk i) ⟨al, .stat, []⟩) .stat (blk i) [] m.next m.graves) =
        .ok () (st (others P m i (blk i) ⟨al, .stat, []⟩) h k xs nx g) ∧
      Good (others P m i (blk i) ⟨al, .stat, []⟩) h k xs nx g) :
    ∃ m' blk', ctorRest i f m = .ok () m' ∧ MRep P L (y.put i (some ⟨al, h, xs⟩)) blk' m' := by
  obtain ⟨k, nx, g, h1, h2⟩ := hf
  have hv : (y.put i (some ⟨al, .stat, []⟩)) i = some ⟨al, .stat, []⟩ := by simp [Sys.put]
  have := rejoin hM hv h2
  rw [put_put] at this
  refine ⟨_, _, ?_, this⟩
  simp only [ctorRest, at'_ok hM hv h1]

theorem destruct_mrep (hN : 0 < P.N) (hR : P.R ≤ P.N + 1) {i : Nat} {v : V α} (hM : MRep P L y blk m) (hv : y i = some v) :
    ∃ m', destruct i m = .ok () m' ∧ MRep P L (y.put i none) blk m' := by
  obtain ⟨s, g', e1, e2, e3, e4, e5, e6, e7, e8, e9⟩ := dtorBody_st (split_good hN hR hM hv)
  have hrest := split_rest hM hv
  refine ⟨⟨Function.update m.vec i none, s.heap, s.next, s.v.stat :: s.graves, s.ctick, s.atick⟩, ?_, ?_⟩
  · simp only [destruct, M.bind_apply, at'_ok hM hv e1, M.mem, Mem.upd]
    simp
  · rw [e2, e3, e4, e6, e7, e8]
    refine ⟨hrest.vec, hrest.own, hrest.only, hrest.keep, hrest.inj, hrest.free, ?_, rfl, rfl, hrest.len⟩
    refine allRaw_cons ?_ e5
    intro i; rfl

theorem moveAll {N : Nat} (mv : α → α) {xs : List α} (h1 : xs.length ≤ N) :
    ∃ b, moveLoop mv 0 0 xs.length (Buf.ofList N xs) (Buf.fresh N) = some (b, Buf.ofList N xs) ∧
      b.destroyRange 0 xs.length = some (Buf.fresh N) := by
  obtain ⟨b1, e1, c1, l1, r1⟩ := moveLoop_eq mv xs.length 0 0 (Buf.ofList N xs) (Buf.fresh N)
      (by simp only [Buf.ofList_cap]; omega) (by simp only [Buf.fresh]; omega)
      (fun i _ h2 => ⟨xs[i]'(by omega), Buf.ofList_live (by omega)⟩) (fun i _ _ => rfl)
  refine ⟨b1, ?_, ?_⟩
  · rw [e1]
    congr 2
    ext i
    · rfl
    · simp only [Buf.ofList_cells, Buf.fresh]
      grind
  · rw [Buf.destroyRange_eq xs.length 0 b1 (by rw [c1]; simp only [Buf.ofList_cap]; omega) (by
      intro i _ hi
      exact l1 i (by omega) (by omega))]
    congr 1
    ext i
    · simp only [c1, Buf.fresh]; rfl
    · simp only [Buf.fresh]
      split
      · rfl
      · rw [r1 i (by omega)]; exact Buf.ofList_raw (by omega)

/-- `take_impl` into a vector whose fields but the pointers are set -/
theorem takeImpl_mrep (E : Elem α) {i j : Nat} {w : V α} {vi : Vec α} (hij : i ≠ j)
    (hM : MRep P L y blk { m with vec := Function.update m.vec i none }) (hw : y j = some w) (hvi : m.vec i = some vi)
    (h1 : vi.self = i) (h2 : vi.cap = w.home.cap P.N) (h3 : vi.al = w.al) (h4 : vi.stat = Buf.fresh P.N) :
    ∃ m' blk', takeImpl P E i j m = .ok () m' ∧ MRep P L ((y.put i (some w)).put j (some ⟨w.al, .stat, []⟩)) blk' m' ∧
      (∀ c v, w.home = .dyn c → m.vec j = some v → (m'.vec i).map (·.bgn) = some v.bgn) := by
  have hji : ¬ j = i := Ne.symm hij
  have hj := hM.vec j
  simp only [Function.update_apply, hji, if_false, hw, Option.map_some] at hj
  have hi := hM.vec i
  simp only [Function.update_apply, if_true] at hi
  have hyi : y i = none := by
    cases hh : y i with
    | none => rfl
    | some v => rw [hh] at hi; simp at hi
  have hlen := hM.len j w hw
  have hput : ∀ a x, ((y.put i (some w)).put j (some ⟨w.al, .stat, []⟩)) a = some x →
      (a = j ∧ x = ⟨w.al, .stat, []⟩) ∨ (a = i ∧ x = w) ∨ (a ≠ i ∧ a ≠ j ∧ y a = some x) := by
    intro a x ha
    simp only [Sys.put] at ha
    split at ha
    · simp at ha; exact Or.inl ⟨‹_›, ha.symm⟩
    · split at ha
      · simp at ha; exact Or.inr (Or.inl ⟨‹_›, ha.symm⟩)
      · exact Or.inr (Or.inr ⟨‹_›, ‹_›, ha⟩)
  simp only [takeImpl, M.mem, hij, if_false, hvi, hj, Option.bind_eq_bind, Option.bind_some]
  cases hh : w.home with
  | stat =>
    simp only [hh, Home.cap] at hlen
    obtain ⟨b, e1, e2⟩ := moveAll (N := P.N) E.mv hlen
    have hst : (vecRep P j (blk j) w).isStatic = true := by simp [vecRep, Vec.isStatic, hh, loc]
    have hst2 : (vecRep P j (blk j) w).stat = Buf.ofList P.N w.xs := by simp [vecRep, hh, putStat, Home.cap]
    have hst3 : (vecRep P j (blk j) w).endo = w.xs.length := rfl
    have hst4 : (vecRep P j (blk j) w).endp = (vecRep P j (blk j) w).bgn := rfl
    simp only [hst, hst2, hst3, hst4, if_true, h4, e1, e2, Option.bind_some]
    refine ⟨_, blk, rfl, ?_, by intro c v hc; simp at hc⟩
    refine ⟨?_, ?_, ?_, ?_, ?_, hM.free, hM.raw, hM.ct, hM.at', ?_⟩
    · intro a
      simp only [Function.update_apply, Sys.put]
      split
      · rename_i e; subst e
        simp [vecRep, loc, Home.cap, putStat, Buf.ofList_nil]
      · split
        · rename_i e; subst e
          simp [vecRep, loc, Home.cap, putStat, hh, h1, h2, h3]
        · rename_i e1 e2
          have := hM.vec a
          simpa only [Function.update_apply, e2, if_false] using this
    · intro a x c ha hc
      rcases hput a x ha with ⟨rfl, rfl⟩ | ⟨rfl, rfl⟩ | ⟨_, _, ha⟩
      · simp at hc
      · rw [hh] at hc; simp at hc
      · exact hM.own a x c ha hc
    · intro q b hq
      rcases hM.only q b hq with ⟨a, x, c, f1, f2, f3⟩ | hL
      · have n1 : a ≠ i := by rintro rfl; rw [hyi] at f1; simp at f1
        have n2 : a ≠ j := by
          rintro rfl
          rw [hw] at f1; simp only [Option.some.injEq] at f1; subst f1
          rw [hh] at f2; simp at f2
        exact Or.inl ⟨a, x, c, by simp [Sys.put, n1, n2, f1], f2, f3⟩
      · exact Or.inr hL
    · intro q b hq
      obtain ⟨f1, f2⟩ := hM.keep q b hq
      refine ⟨f1, fun a x c ha hc => ?_⟩
      rcases hput a x ha with ⟨rfl, rfl⟩ | ⟨rfl, rfl⟩ | ⟨_, _, ha⟩
      · simp at hc
      · rw [hh] at hc; simp at hc
      · exact f2 a x c ha hc
    · intro a b x z c d f1 f2 f3 f4 f5
      rcases hput a x f1 with ⟨rfl, rfl⟩ | ⟨rfl, rfl⟩ | ⟨_, _, f1⟩
      · simp at f3
      · rw [hh] at f3; simp at f3
      · rcases hput b z f2 with ⟨rfl, rfl⟩ | ⟨rfl, rfl⟩ | ⟨_, _, f2⟩
        · simp at f4
        · rw [hh] at f4; simp at f4
        · exact hM.inj a b x z c d f1 f2 f3 f4 f5
    · intro a x ha
      rcases hput a x ha with ⟨rfl, rfl⟩ | ⟨rfl, rfl⟩ | ⟨_, _, ha⟩
      · simp
      · simpa [hh, Home.cap] using hlen
      · exact hM.len a x ha
  | dyn cc =>
    have hst : (vecRep P j (blk j) w).isStatic = false := by simp [vecRep, Vec.isStatic, hh, loc]
    simp only [hst, Bool.false_eq_true, if_false]
    refine ⟨_, Function.update blk i (blk j), rfl, ?_, ?_⟩
    · refine ⟨?_, ?_, ?_, ?_, ?_, hM.free, hM.raw, hM.ct, hM.at', ?_⟩
      · intro a
        simp only [Function.update_apply, Sys.put]
        split
        · rename_i e; subst e
          simp [vecRep, loc, Home.cap, putStat, Buf.ofList_nil, hh]
        · split
          · rename_i e; subst e
            simp [vecRep, loc, Home.cap, putStat, hh, h1, h2, h3, h4]
          · rename_i e1 e2
            have := hM.vec a
            simpa only [Function.update_apply, e2, if_false] using this
      · intro a x c ha hc
        rcases hput a x ha with ⟨rfl, rfl⟩ | ⟨rfl, rfl⟩ | ⟨n1, _, ha⟩
        · simp at hc
        · have := hM.own j x c hw hc
          simpa using this
        · have := hM.own a x c ha hc
          simpa [n1] using this
      · intro q b hq
        rcases hM.only q b hq with ⟨a, x, c, f1, f2, f3⟩ | hL
        · have n1 : a ≠ i := by rintro rfl; rw [hyi] at f1; simp at f1
          by_cases n2 : a = j
          · subst n2
            rw [hw] at f1; simp only [Option.some.injEq] at f1; subst f1
            exact Or.inl ⟨i, w, c, by simp [Sys.put, hij], f2, by simp [f3]⟩
          · exact Or.inl ⟨a, x, c, by simp [Sys.put, n1, n2, f1], f2, by simp [n1, f3]⟩
        · exact Or.inr hL
      · intro q b hq
        obtain ⟨f1, f2⟩ := hM.keep q b hq
        refine ⟨f1, fun a x c ha hc => ?_⟩
        rcases hput a x ha with ⟨rfl, rfl⟩ | ⟨rfl, rfl⟩ | ⟨n1, _, ha⟩
        · simp at hc
        · simp only [Function.update_self]; exact f2 j x c hw hc
        · simp only [Function.update_apply, n1, if_false]; exact f2 a x c ha hc
      · intro a b x z c d f1 f2 f3 f4 f5
        rcases hput a x f1 with ⟨rfl, rfl⟩ | ⟨rfl, rfl⟩ | ⟨na, na', f1'⟩
        · simp at f3
        · rcases hput b z f2 with ⟨rfl, rfl⟩ | ⟨rfl, rfl⟩ | ⟨nb, nb', f2'⟩
          · simp at f4
          · rfl
          · simp [nb] at f5
            exact absurd (hM.inj j b _ z c d hw f2' f3 f4 f5) (Ne.symm nb')
        · rcases hput b z f2 with ⟨rfl, rfl⟩ | ⟨rfl, rfl⟩ | ⟨nb, nb', f2'⟩
          · simp at f4
          · simp [na] at f5
            exact absurd (hM.inj a j x _ c d f1' hw f3 f4 f5) na'
          · simp [na, nb] at f5
            exact hM.inj a b x z c d f1' f2' f3 f4 f5
      · intro a x ha
        rcases hput a x ha with ⟨rfl, rfl⟩ | ⟨rfl, rfl⟩ | ⟨_, _, ha⟩
        · simp
        · exact hlen
        · exact hM.len a x ha
    · intro c v _ hv
      simp only [Option.some.injEq] at hv; subst hv
      simp [Function.update_apply, hij]

theorem reserved_stat (N R n : Nat) : reserved N R n .stat = choose N R n .stat := by
  simp only [reserved, choose, Home.cap]
  split <;> simp [*]

theorem put_same {i : Nat} {v : Option (V α)} (hv : y i = v) : y.put i v = y := by
  funext j; simp only [Sys.put]; split
  · rename_i e; rw [e, hv]
  · rfl

/-- the stages of `operator=(&&)` before `take_impl` -/
theorem dropOld_mrep (hN : 0 < P.N) (hR : P.R ≤ P.N + 1) {i : Nat} {v : V α} (al cap : Nat) (hM : MRep P L y blk m)
    (hv : y i = some v) :
    ∃ m' vi, at' i (do destroyAll; freeDyn; M.modify fun s => { s with v := { s.v with al := al, cap := cap } }) m = .ok () m' ∧
      MRep P L (y.put i none) blk { m' with vec := Function.update m'.vec i none } ∧ m'.vec i = some vi ∧
      vi.self = i ∧ vi.cap = cap ∧ vi.al = al ∧ vi.stat = Buf.fresh P.N ∧ ∀ j, j ≠ i → m'.vec j = m.vec j := by
  obtain ⟨s, g', e1, e2, e3, e4, e5, e6, e7, e8, e9⟩ := dtorBody_st (split_good hN hR hM hv)
  have hrest := split_rest hM hv
  have hself : s.v.self = i := e9
  refine ⟨m.upd i { s with v := { s.v with al := al, cap := cap } }, { s.v with al := al, cap := cap }, ?_, ?_, ?_, hself, rfl, rfl, e2, ?_⟩
  · refine at'_ok hM hv ?_
    simp only [dtorBody, M.bind_apply] at e1
    simp only [M.bind_apply]
    revert e1
    cases destroyAll (st (others P m i (blk i) v) v.home (blk i) v.xs m.next m.graves) with
    | ub => simp
    | throw e s => simp
    | ok u s1 =>
      simp only
      intro e1
      rw [e1]
      simp
  · simp only [Mem.upd, Function.update_idem]
    rw [e3, e4, e6, e7, e8]
    exact ⟨hrest.vec, hrest.own, hrest.only, hrest.keep, hrest.inj, hrest.free, e5, rfl, rfl, hrest.len⟩
  · simp [Mem.upd]
  · intro j hj
    simp [Mem.upd, Function.update_apply, hj]

theorem mcall_mrep (E : Elem α) (hN : 0 < P.N) (hR : P.R ≤ P.N + 1) {op : MOp α} {y' : Sys α} {r : Reply α}
    (hM : MRep P L y blk m) (hs : MSafe P.N P.R op y) (h : mstep P.N P.R E op y = some (r, y')) :
    ∃ m' blk', mcall P E op m = some (r, m') ∧ MRep P L y' blk' m' := by
  have hnew : ∀ {i al : Nat} {m1 : Mem α}, MRep P L (y.put i (some ⟨al, .stat, []⟩)) blk m1 →
      Good (others P m1 i (blk i) ⟨al, .stat, []⟩) .stat (blk i) [] m1.next m1.graves := by
    intro i al m1 h
    exact split_good hN hR h (by simp [Sys.put])
  cases op with
  | ctor i al =>
    simp only [mstep] at h
    split at h
    · simp at h
    · rename_i hy
      simp only [Option.some.injEq, Prod.mk.injEq] at h; obtain ⟨rfl, rfl⟩ := h
      obtain ⟨m', e1, e2⟩ := construct_mrep (al := al) hN hR hM (by simpa using hy)
      exact ⟨m', blk, by simp [mcall, mexec, e1], by simpa [choose] using e2⟩
  | ctorCount i al n =>
    simp only [mstep] at h
    split at h
    · simp at h
    · rename_i hy
      simp only [Option.some.injEq, Prod.mk.injEq] at h; obtain ⟨rfl, rfl⟩ := h
      obtain ⟨m1, e1, e2⟩ := construct_mrep (al := al) hN hR hM (by simpa using hy)
      obtain ⟨k', nx', g', f1, f2⟩ := resizeV_st E (d := n) (v := .val E.dflt) (a := E.dflt) (hnew e2) ⟨rfl, rfl⟩ rfl
        (Or.inr ⟨_, rfl⟩)
      simp only [reserved_stat] at f1 f2
      obtain ⟨m2, blk2, e3, e4⟩ := ctorRest_mrep e2 ⟨k', nx', g', f1, f2⟩
      refine ⟨m2, blk2, ?_, by simpa [others] using e4⟩
      have : ctorRest i (resizeV P E n (.val E.dflt)) m1 = .ok () m2 := e3
      simp [mcall, mexec, ctorCount, e1, this]
  | ctorVal i al n a =>
    simp only [mstep] at h
    split at h
    · simp at h
    · rename_i hy
      simp only [Option.some.injEq, Prod.mk.injEq] at h; obtain ⟨rfl, rfl⟩ := h
      obtain ⟨m1, e1, e2⟩ := construct_mrep (al := al) hN hR hM (by simpa using hy)
      obtain ⟨k', nx', g', f1, f2⟩ := assignFill_stB (a := a) (d := n) (n := 0) (r := .val a) (hnew e2) ⟨rfl, rfl⟩
        (Or.inr fun s => by simp [loadRef])
      obtain ⟨m2, blk2, e3, e4⟩ := ctorRest_mrep (f := assignFill P n (.val a)) e2 ⟨k', nx', g', by
        rw [← f1]; simp only [st, Buf.ofList_nil]; rfl, f2⟩
      exact ⟨m2, blk2, by simp [mcall, mexec, ctorVal, e1, e3], by simpa [others] using e4⟩
  | ctorRange i al xs =>
    simp only [mstep] at h
    split at h
    · simp at h
    · rename_i hy
      simp only [Option.some.injEq, Prod.mk.injEq] at h; obtain ⟨rfl, rfl⟩ := h
      obtain ⟨m1, e1, e2⟩ := construct_mrep (al := al) hN hR hM (by simpa using hy)
      obtain ⟨k', nx', g', f1, f2⟩ := assignCopy_stB (ys := xs) (n := 0) (hnew e2) ⟨rfl, rfl⟩
      obtain ⟨m2, blk2, e3, e4⟩ := ctorRest_mrep (f := assignCopy P xs) e2 ⟨k', nx', g', by
        rw [← f1]; simp only [st, Buf.ofList_nil]; rfl, f2⟩
      exact ⟨m2, blk2, by simp [mcall, mexec, ctorRange, e1, e3], by simpa [others] using e4⟩
  | copyCtor i al j =>
    simp only [mstep, Option.bind_eq_bind, Option.bind_eq_some_iff] at h
    obtain ⟨w, hw, h⟩ := h
    split at h
    · simp at h
    · rename_i hy
      simp only [Option.some.injEq, Prod.mk.injEq] at h; obtain ⟨rfl, rfl⟩ := h
      obtain ⟨m1, e1, e2⟩ := construct_mrep (al := al) hN hR hM (by simpa using hy)
      obtain ⟨k', nx', g', f1, f2⟩ := assignCopy_stB (ys := w.xs) (n := 0) (hnew e2) ⟨rfl, rfl⟩
      obtain ⟨m2, blk2, e3, e4⟩ := ctorRest_mrep (f := assignCopy P w.xs) e2 ⟨k', nx', g', by
        rw [← f1]; simp only [st, Buf.ofList_nil]; rfl, f2⟩
      exact ⟨m2, blk2, by simp [mcall, mexec, copyCtor, elems_mrep hM hw, e1, e3], by simpa [others] using e4⟩
  | moveCtor i j =>
    simp only [mstep, Option.bind_eq_bind, Option.bind_eq_some_iff] at h
    obtain ⟨w, hw, h⟩ := h
    split at h
    · simp at h
    · rename_i hy
      simp only [Option.some.injEq, Prod.mk.injEq] at h; obtain ⟨rfl, rfl⟩ := h
      have hy : y i = none := by simpa using hy
      have hij : i ≠ j := by rintro rfl; rw [hy] at hw; simp at hw
      have hvi : m.vec i = none := by rw [hM.vec i, hy]; rfl
      have hvj : m.vec j = some (vecRep P j (blk j) w) := by rw [hM.vec j, hw]; rfl
      let vi : Vec α := ⟨i, .stat i, .stat i, 0, w.home.cap P.N, w.al, Buf.fresh P.N⟩
      have hup : ({ m with vec := Function.update (Function.update m.vec i (some vi)) i none } : Mem α) = m := by
        rw [Function.update_idem, ← hvi, Function.update_eq_self]
      obtain ⟨m2, blk2, e1, e2, _⟩ := takeImpl_mrep E (m := { m with vec := Function.update m.vec i (some vi) }) (vi := vi)
        (y := y) (blk := blk) (w := w) (j := j) hij (by rw [hup]; exact hM) hw (by simp) rfl rfl rfl rfl
      refine ⟨m2, blk2, ?_, e2⟩
      have h1 : (vecRep P j (blk j) w).al = w.al := rfl
      have h2 : (vecRep P j (blk j) w).cap = w.home.cap P.N := rfl
      simp only [mcall, mexec, moveCtor, M.bind_apply, M.get_apply, hvj, construct, M.mem, hvi, at', Function.update_self,
        Mem.view, M.modify_apply, Mem.upd, Function.update_idem, h1, h2]
      simp only [vi] at e1
      rw [e1]
      rfl
  | copyAssign i j =>
    simp only [mstep, Option.bind_eq_bind, Option.bind_eq_some_iff] at h
    obtain ⟨v, hv, w, hw, h⟩ := h
    by_cases hij : i = j
    · simp only [hij, if_true, Option.some.injEq, Prod.mk.injEq] at h; obtain ⟨rfl, rfl⟩ := h
      refine ⟨m, blk, ?_, hM⟩
      have := at'_read (f := pure ()) (b := ()) hM hv rfl
      simp only [mcall, mexec, copyAssign, hij, if_true, M.bind_apply]
      rw [hij] at this
      rw [this]; rfl
    · simp only [hij, if_false, Option.some.injEq, Prod.mk.injEq] at h; obtain ⟨rfl, rfl⟩ := h
      obtain ⟨k', nx', g', f1, f2⟩ := assignRange_st (ys := w.xs) (split_good hN hR hM hv) ⟨rfl, rfl⟩
      refine ⟨_, _, ?_, rejoin hM hv f2⟩
      have e1 : at' i (do destroyAll; assignCopy P w.xs) m = .ok () _ := at'_ok hM hv f1
      simp only [mcall, mexec, copyAssign, hij, if_false, M.bind_apply, elems_mrep hM hw, e1]
      rfl
  | moveAssign i j =>
    simp only [mstep, Option.bind_eq_bind, Option.bind_eq_some_iff] at h
    obtain ⟨v, hv, w, hw, h⟩ := h
    by_cases hij : i = j
    · simp only [hij, if_true, Option.some.injEq, Prod.mk.injEq] at h; obtain ⟨rfl, rfl⟩ := h
      refine ⟨m, blk, ?_, hM⟩
      have := at'_read (f := pure ()) (b := ()) hM hv rfl
      simp only [mcall, mexec, moveAssign, hij, if_true, M.bind_apply]
      rw [hij] at this
      rw [this]; rfl
    · simp only [hij, if_false, Option.some.injEq, Prod.mk.injEq] at h; obtain ⟨rfl, rfl⟩ := h
      have hvj : m.vec j = some (vecRep P j (blk j) w) := by rw [hM.vec j, hw]; rfl
      obtain ⟨m1, vi, e1, e2, e3, e4, e5, e6, e7, e8⟩ := dropOld_mrep hN hR w.al (w.home.cap P.N) hM hv
      have hwj : (y.put i none) j = some w := by simp [Sys.put, Ne.symm hij, hw]
      obtain ⟨m2, blk2, f1, f2, _⟩ := takeImpl_mrep E hij e2 hwj e3 e4 e5 e6 e7
      rw [put_put] at f2
      refine ⟨m2, blk2, ?_, f2⟩
      have h1 : (vecRep P j (blk j) w).al = w.al := rfl
      have h2 : (vecRep P j (blk j) w).cap = w.home.cap P.N := rfl
      simp only [mcall, mexec, moveAssign, hij, if_false, M.bind_apply, M.get_apply, hvj, h1, h2]
      rw [e1]
      simp only [f1]
      rfl
  | dtor i =>
    simp only [mstep, Option.bind_eq_bind, Option.bind_eq_some_iff] at h
    obtain ⟨v, hv, h⟩ := h
    simp only [Option.some.injEq, Prod.mk.injEq] at h; obtain ⟨rfl, rfl⟩ := h
    obtain ⟨m', e1, e2⟩ := destruct_mrep hN hR hM hv
    exact ⟨m', blk, by simp [mcall, mexec, e1], e2⟩
  | call i op =>
    simp only [mstep, Option.bind_eq_bind, Option.bind_eq_some_iff] at h
    obtain ⟨v, hv, ⟨r1, h1, xs1⟩, hst, h⟩ := h
    simp only [Option.some.injEq, Prod.mk.injEq] at h; obtain ⟨rfl, rfl⟩ := h
    obtain ⟨k', nx', g', f1, f2⟩ := call_st E (C := others P m i (blk i) v) (split_good hN hR hM hv) ⟨rfl, rfl⟩ (hs v hv) hst
    refine ⟨_, _, ?_, rejoin hM hv f2⟩
    have f1 : call P E op (st (others P m i (blk i) v) v.home (blk i) v.xs m.next m.graves) = _ := f1
    simp only [call] at f1
    simp only [mcall, mexec, at', hM.vec i, hv, Option.map_some, view_st hM hv]
    revert f1
    cases exec P E op (st (others P m i (blk i) v) v.home (blk i) v.xs m.next m.graves) with
    | ub => simp
    | ok r s =>
      simp only [Option.some.injEq, Prod.mk.injEq]
      rintro ⟨rfl, rfl⟩; exact ⟨rfl, rfl⟩
    | throw e s =>
      simp only [Option.some.injEq, Prod.mk.injEq]
      rintro ⟨rfl, rfl⟩; exact ⟨rfl, rfl⟩

theorem mrun_mrep (E : Elem α) (hN : 0 < P.N) (hR : P.R ≤ P.N + 1) : ∀ (ops : List (MOp α)) {y y' : Sys α}
    {blk : Nat → Nat} {m : Mem α} {rs : List (Reply α)}, MRep P L y blk m → MSafeRun P.N P.R E ops y →
    Spec.mrun P.N P.R E ops y = some (rs, y') →
    ∃ m' blk', mrun P E ops m = some (rs, m') ∧ MRep P L y' blk' m' := by
  intro ops
  induction ops with
  | nil =>
    intro y y' blk m rs hM _ h
    simp only [Spec.mrun, Option.some.injEq, Prod.mk.injEq] at h; obtain ⟨rfl, rfl⟩ := h
    exact ⟨m, blk, rfl, hM⟩
  | cons op ops ih =>
    intro y y' blk m rs hM hs h
    simp only [Spec.mrun, Option.bind_eq_bind, Option.bind_eq_some_iff] at h
    obtain ⟨⟨r, y1⟩, e1, ⟨rs1, y2⟩, e2, e3⟩ := h
    simp only [Option.some.injEq, Prod.mk.injEq] at e3
    obtain ⟨rfl, rfl⟩ := e3
    simp only [MSafeRun, e1] at hs
    obtain ⟨m1, blk1, f1, f2⟩ := mcall_mrep E hN hR hM hs.1 e1
    obtain ⟨m2, blk2, f3, f4⟩ := ih f2 hs.2 e2
    exact ⟨m2, blk2, by simp [mrun, f1, f3], f4⟩

theorem init_mrep (P : Params) : MRep (α := α) P (fun _ => none) (fun _ => none) (fun _ => 0) Mem.init :=
  ⟨fun _ => rfl, by simp, by intro k b h; simp [Mem.init] at h, by intro k b h; simp at h, by simp, fun _ _ => rfl,
    by intro b hb; simp [Mem.init] at hb, rfl, rfl, by simp⟩

theorem MRep.owner (hM : MRep P (fun _ => none) y blk m) {k : Nat} {b : Block α} (hk : m.heap k = some b) :
    ∃ i v c, y i = some v ∧ v.home = .dyn c ∧ blk i = k := by
  rcases hM.only k b hk with h | h
  · exact h
  · simp at h

end Itlib.SmallVector
