import Verif.SmallVector.Props
import Mathlib.Tactic.Linarith

/-!
# What appending to and removing from the end of a `small_vector` costs

C68. A call that leaves the elements where they are costs nothing here, every other one costs the change of the buffer and
one for each element that is moved into the new one. (What a call does besides, at most the creation or destruction of one
element, is the same for every call.) Arguments are values, not references to elements of the vector.
-/
namespace Itlib.SmallVector
open Itlib Spec
variable {α : Type}

/-- calls of `push_back`, `emplace_back`, `pop_back` -/
inductive EndOp (α : Type) where
  | push (a : α)
  | emplace (a : α)
  | pop

def EndOp.op : EndOp α → Op α
  | .push a => .pushBack (.val a)
  | .emplace a => .emplaceBack (.val a)
  | .pop => .popBack

/-- `size()` -/
def sizeOf (s : St α) : Nat := s.v.endo

/-- the cost of going from one state of the vector to the next -/
def cost (s s' : St α) : Nat := if s'.v.bgn = s.v.bgn then 0 else 1 + min (sizeOf s) (sizeOf s')

/-- the cost of a history; `none` is undefined behaviour -/
def work (P : Params) (E : Elem α) : List (EndOp α) → St α → Option Nat
  | [], _ => some 0
  | o :: ops, s => do
    let (_, s') ← call P E o.op s
    let w ← work P E ops s'
    some (cost s s' + w)

/-- what has been paid in advance, times `N + 2 - R` -/
def credit (N R : Nat) : Home → Nat → Nat
  | .stat, n => (2 * N + 2) * (n + 1 - R)
  | .dyn c, n => (N + 2 - R) * (3 * n - 2 * c) + R * (N + 1 - n)

/-- what a call pays, times `N + 2 - R` -/
def fee (N R : Nat) : Nat := (2 * N + 2) + 4 * (N + 2 - R)

/-- what `pop_back` does to the home -/
def homePop (N R : Nat) (h : Home) (n : Nat) : Home :=
  if n = 1 then (if 0 < R then .stat else h) else choose N R (n - 1) h

theorem grow_one {c : Nat} (hc : 0 < c) : growTo (c + 1) (c + 1) c = (3 * c + 1) / 2 := by
  obtain ⟨c, rfl⟩ : ∃ d, c = d + 1 := ⟨c - 1, by omega⟩
  simp only [growTo]
  rw [if_neg (by omega), if_pos (by omega)]

theorem credit_push {N R : Nat} {h : Home} {n : Nat} (hN : 0 < N) (hR : R ≤ N + 1) (hn : n ≤ h.cap N)
    (hd : ∀ c, h = .dyn c → N ≤ c) :
    (N + 2 - R) * (if moves N R (n + 1) h then 1 + n else 0) + credit N R (choose N R (n + 1) h) (n + 1) ≤
      credit N R h n + fee N R := by
  obtain ⟨D, hD⟩ : ∃ D, N + 2 = R + D := ⟨N + 2 - R, by omega⟩
  have hD' : N + 2 - R = D := by omega
  simp only [fee, hD']
  cases h with
  | stat =>
    simp only [Home.cap] at hn
    by_cases hf : n + 1 ≤ N
    · rw [if_neg (by simp only [moves]; omega), choose, if_pos hf]
      simp only [credit]
      have : (2 * N + 2) * (n + 1 + 1 - R) ≤ (2 * N + 2) * (n + 1 - R + 1) := Nat.mul_le_mul_left _ (by omega)
      rw [Nat.mul_add] at this
      omega
    · obtain rfl : n = N := by omega
      rw [if_pos (by simp only [moves]; omega), choose, if_neg hf]
      simp only [credit, hD']
      rw [show n + 1 - R = D - 1 by omega, show 3 * (n + 1) - 2 * (n + 1) = n + 1 by omega, show n + 1 - (n + 1) = 0 by omega]
      obtain ⟨d, rfl⟩ : ∃ d, D = d + 1 := ⟨D - 1, by omega⟩
      simp only [Nat.add_sub_cancel]
      nlinarith
  | dyn c =>
    have hc := hd c rfl
    simp only [Home.cap] at hn
    by_cases hf : n + 1 ≤ c
    · by_cases hr : n + 1 < R
      · rw [if_pos (by simp only [moves]; omega), choose, if_pos hf, if_pos hr]
        simp only [credit]
        rw [show n + 1 + 1 - R = 0 by omega]
        obtain ⟨q, rfl⟩ : ∃ q, R = n + 2 + q := ⟨R - (n + 2), by omega⟩
        rw [show N + 1 - n = D + 1 + q by omega]
        nlinarith
      · rw [if_neg (by simp only [moves]; omega), choose, if_pos hf, if_neg hr]
        simp only [credit, hD']
        have h1 : D * (3 * (n + 1) - 2 * c) ≤ D * (3 * n - 2 * c + 3) := Nat.mul_le_mul_left _ (by omega)
        have h2 : R * (N + 1 - (n + 1)) ≤ R * (N + 1 - n) := Nat.mul_le_mul_left _ (by omega)
        rw [Nat.mul_add D] at h1
        generalize D * (3 * (n + 1) - 2 * c) = x at h1 ⊢
        omega
    · obtain rfl : n = c := by omega
      rw [if_pos (by simp only [moves]; omega), choose, if_neg hf, grow_one (by omega)]
      simp only [credit, hD']
      have h1 : D * (3 * (n + 1) - 2 * ((3 * n + 1) / 2)) ≤ D * 3 := Nat.mul_le_mul_left _ (by omega)
      have h2 : R * (N + 1 - (n + 1)) ≤ R * (N + 1 - n) := Nat.mul_le_mul_left _ (by omega)
      rw [show 3 * n - 2 * n = n by omega, Nat.mul_add, Nat.mul_one]
      omega

theorem credit_pop {N R : Nat} {h : Home} {n : Nat} (hR : R ≤ N + 1) (hn : n ≤ h.cap N) (h0 : 0 < n) :
    (N + 2 - R) * (if h ≠ .stat ∧ n - 1 < R then n else 0) + credit N R (homePop N R h n) (n - 1) ≤
      credit N R h n + fee N R := by
  obtain ⟨D, hD⟩ : ∃ D, N + 2 = R + D := ⟨N + 2 - R, by omega⟩
  have hD' : N + 2 - R = D := by omega
  simp only [fee, hD', homePop]
  cases h with
  | stat =>
    simp only [Home.cap] at hn
    rw [if_neg (by simp), show (if n = 1 then (if 0 < R then Home.stat else .stat) else choose N R (n - 1) .stat) = .stat by
      simp only [choose, show n - 1 ≤ N by omega, if_true]; split <;> simp]
    simp only [credit]
    have : (2 * N + 2) * (n - 1 + 1 - R) ≤ (2 * N + 2) * (n + 1 - R) := Nat.mul_le_mul_left _ (by omega)
    omega
  | dyn c =>
    simp only [Home.cap] at hn
    by_cases hr : n - 1 < R
    · rw [if_pos ⟨by simp, hr⟩, show (if n = 1 then (if 0 < R then Home.stat else .dyn c) else choose N R (n - 1) (.dyn c)) = .stat by
        simp only [choose, show n - 1 ≤ c by omega, hr, if_true, show 0 < R by omega]; split <;> simp]
      simp only [credit]
      rw [show n - 1 + 1 - R = 0 by omega]
      obtain ⟨q, rfl⟩ : ∃ q, R = n + q := ⟨R - n, by omega⟩
      obtain ⟨d, rfl⟩ : ∃ d, D = d + 1 := ⟨D - 1, by omega⟩
      rw [show N + 1 - n = d + q by omega]
      nlinarith
    · rw [if_neg (by simp [hr]), show (if n = 1 then (if 0 < R then Home.stat else .dyn c) else choose N R (n - 1) (.dyn c)) = .dyn c by
        simp only [choose, show n - 1 ≤ c by omega, hr, if_true, if_false]
        split
        · rw [if_neg (by omega)]
        · rfl]
      simp only [credit, hD']
      have h1 : D * (3 * (n - 1) - 2 * c) ≤ D * (3 * n - 2 * c) := Nat.mul_le_mul_left _ (by omega)
      have h2 : R * (N + 1 - (n - 1)) ≤ R * (N + 1 - n + 1) := Nat.mul_le_mul_left _ (by omega)
      rw [Nat.mul_add R] at h2
      generalize D * (3 * (n - 1) - 2 * c) = x at h1 ⊢
      omega

variable {C : Ctx α} {h : Home} {k nx : Nat} {g : List (Buf α)} {xs : List α}

theorem cost_st (h' : Home) (k' nx' : Nat) (g' : List (Buf α)) (xs' : List α) :
    cost (st C h k xs nx g) (st C h' k' xs' nx' g') =
      if loc C.i k' h' = loc C.i k h then 0 else 1 + min xs.length xs'.length := rfl

/-- the credit pays for every call -/
theorem endOp_st (E : Elem α) (hG : Good C h k xs nx g) (hT : NoThrow C) (o : EndOp α) :
    ∃ r h' k' xs' nx' g', call C.P E o.op (st C h k xs nx g) = some (r, st C h' k' xs' nx' g') ∧ Good C h' k' xs' nx' g' ∧
      (C.P.N + 2 - C.P.R) * cost (st C h k xs nx g) (st C h' k' xs' nx' g') + credit C.P.N C.P.R h' xs'.length ≤
        credit C.P.N C.P.R h xs.length + fee C.P.N C.P.R := by
  have hd : ∀ c, h = .dyn c → C.P.N ≤ c := fun c e => (hG.wf.own c e).2.2
  have push : ∀ (a : α) (k' nx' : Nat) (g' : List (Buf α)), (¬ moves C.P.N C.P.R (xs.length + 1) h → k' = k) →
      (C.P.N + 2 - C.P.R) * cost (st C h k xs nx g) (st C (choose C.P.N C.P.R (xs.length + 1) h) k' (xs ++ [a]) nx' g') +
        credit C.P.N C.P.R (choose C.P.N C.P.R (xs.length + 1) h) (xs ++ [a]).length ≤
        credit C.P.N C.P.R h xs.length + fee C.P.N C.P.R := by
    intro a k' nx' g' hk
    have e := credit_push hG.N hG.R hG.len hd
    rw [List.length_append, List.length_singleton]
    refine Nat.le_trans (Nat.add_le_add_right (Nat.mul_le_mul_left _ ?_) _) e
    rw [cost_st]
    by_cases hm : moves C.P.N C.P.R (xs.length + 1) h
    · rw [if_pos hm]; simp only [List.length_append]; split <;> omega
    · rw [if_neg hm, choose_stay hm, hk hm]; simp
  cases o with
  | push a =>
    obtain ⟨k', nx', g', e1, e2, e3⟩ := pushBack_st E (v := .val a) hG hT rfl trivial
    exact ⟨_, _, _, _, _, _, by simp only [EndOp.op, call, exec, M.bind_apply, e1]; rfl, e2, push a k' nx' g' e3⟩
  | emplace a =>
    obtain ⟨k', nx', g', e1, e2, e3⟩ := emplaceBack_st E (v := .val a) hG hT rfl trivial
    exact ⟨_, _, _, _, _, _, by simp only [EndOp.op, call, exec, M.bind_apply, e1]; rfl, e2, push a k' nx' g' e3⟩
  | pop =>
    by_cases hx : xs = []
    · subst hx
      refine ⟨.exc .outOfRange, h, k, [], nx, g, ?_, hG, ?_⟩
      · simp only [EndOp.op, call, exec, popBack, M.bind_apply, size_st, List.length_nil]
        rw [shrinkAt_reject C.P E (by simp)]
      · rw [cost_st]; simp
    · have hp : 0 < xs.length := List.length_pos_iff.mpr hx
      have hi : (xs.length : Int) - 1 = ((xs.length - 1 : Nat) : Int) := by omega
      obtain ⟨g', e1, e2⟩ := shrinkAt_st₀ E (pos := xs.length - 1) (num := 1) hG (by omega) (Or.inl (by omega))
      have hh : (if 1 = xs.length then (if 0 < C.P.R then Home.stat else h) else choose C.P.N C.P.R (xs.length - 1) h) =
          homePop C.P.N C.P.R h xs.length := by simp only [homePop, eq_comm]
      rw [hh] at e1 e2
      rw [show xs.length - 1 + 1 = xs.length by omega, List.drop_length, List.append_nil] at e1 e2
      refine ⟨_, _, _, _, _, _, by
        simp only [EndOp.op, call, exec, popBack, M.bind_apply, size_st, hi, e1]; rfl, e2, ?_⟩
      have e := credit_pop hG.R hG.len hp
      rw [List.length_take, show min (xs.length - 1) xs.length = xs.length - 1 by omega]
      refine Nat.le_trans (Nat.add_le_add_right (Nat.mul_le_mul_left _ ?_) _) e
      rw [cost_st, List.length_take]
      by_cases hm : h ≠ .stat ∧ xs.length - 1 < C.P.R
      · rw [if_pos hm]; split <;> omega
      · have : homePop C.P.N C.P.R h xs.length = h := by
          have hl := hG.len
          simp only [homePop]
          cases h with
          | stat => simp only [Home.cap] at hl; simp only [choose, show xs.length - 1 ≤ C.P.N by omega, if_true]; split <;> simp
          | dyn c =>
            simp only [ne_eq, reduceCtorEq, not_false_eq_true, true_and] at hm
            simp only [Home.cap] at hl
            simp only [choose, show xs.length - 1 ≤ c by omega, if_true, hm, if_false]
            split
            · rw [if_neg (by omega)]
            · rfl
        rw [if_neg hm, this, if_pos rfl]

theorem work_st (E : Elem α) (hT : NoThrow C) : ∀ (ops : List (EndOp α)) {h : Home} {k nx : Nat} {g : List (Buf α)}
    {xs : List α}, Good C h k xs nx g →
    ∃ w, work C.P E ops (st C h k xs nx g) = some w ∧
      (C.P.N + 2 - C.P.R) * w ≤ credit C.P.N C.P.R h xs.length + fee C.P.N C.P.R * ops.length := by
  intro ops
  induction ops with
  | nil => intro h k nx g xs _; exact ⟨0, rfl, by simp⟩
  | cons o ops ih =>
    intro h k nx g xs hG
    obtain ⟨r, h', k', xs', nx', g', e1, e2, e3⟩ := endOp_st E hG hT o
    obtain ⟨w, e4, e5⟩ := ih e2
    refine ⟨cost (st C h k xs nx g) (st C h' k' xs' nx' g') + w, by simp [work, e1, e4], ?_⟩
    rw [List.length_cons, Nat.mul_add, Nat.mul_add]
    omega

/-! ## C68 -/

/-- **C68.** Whatever has happened to a vector before, and in whatever order `push_back`, `emplace_back` and `pop_back` are
called then: none of the calls has undefined behaviour, and the total cost, times `N + 2 - R`, is at most that of a
constant number for each call, and what the vector brought along. In particular no order of calls makes the total grow
faster than the number of calls. -/
theorem C68_small_vector_amortised (P : Params) (E : Elem α) (hN : 0 < P.N) (hR : P.R ≤ P.N + 1) (h : Home) (xs : List α)
    (s : St α) (hr : Reaches P E h xs s) (ops : List (EndOp α)) :
    ∃ w, work P E ops s = some w ∧
      (P.N + 2 - P.R) * w ≤ credit P.N P.R h xs.length + ((2 * P.N + 2) + 4 * (P.N + 2 - P.R)) * ops.length := by
  obtain ⟨C, k, nx, g, rfl, hT, rfl, hG⟩ := reaches_st hN hR hr
  exact work_st E hT ops hG

theorem reaches_new (P : Params) (E : Elem α) : Reaches P E .stat [] (new P) := ⟨[], [], rfl, trivial, rfl⟩

/-- **C68 for `RevertToStaticBelow = 0`**, the default: starting with an empty vector the cost is at most six for each call,
whatever the static capacity. -/
theorem C68_small_vector_amortised_default (P : Params) (E : Elem α) (hN : 0 < P.N) (hR : P.R = 0) (ops : List (EndOp α)) :
    ∃ w, work P E ops (new P) = some w ∧ w ≤ 2 + 6 * ops.length := by
  obtain ⟨w, e1, e2⟩ := C68_small_vector_amortised P E hN (by omega) _ _ _ (reaches_new P E) ops
  refine ⟨w, e1, ?_⟩
  rw [hR] at e2
  simp only [credit, List.length_nil, Nat.sub_zero, Nat.zero_add, Nat.mul_one] at e2
  refine Nat.le_of_mul_le_mul_left (c := P.N + 2) ?_ (by omega)
  nlinarith

/-- **C68 for `RevertToStaticBelow = 0`**, from any state: at most two more for each element that is there already. -/
theorem C68_small_vector_amortised_from (P : Params) (E : Elem α) (hN : 0 < P.N) (hR : P.R = 0) (h : Home) (xs : List α)
    (s : St α) (hr : Reaches P E h xs s) (ops : List (EndOp α)) :
    ∃ w, work P E ops s = some w ∧ w ≤ 2 * (xs.length + 1) + 6 * ops.length := by
  obtain ⟨w, e1, e2⟩ := C68_small_vector_amortised P E hN (by omega) _ _ _ hr ops
  refine ⟨w, e1, ?_⟩
  rw [hR] at e2
  have hc : credit P.N 0 h xs.length ≤ (P.N + 2) * (2 * (xs.length + 1)) := by
    cases h with
    | stat => simp only [credit, Nat.sub_zero]; nlinarith
    | dyn c =>
      obtain ⟨C, k, nx, g, rfl, hT, rfl, hG⟩ := reaches_st hN (by omega) hr
      have := hG.len
      simp only [Home.cap] at this
      simp only [credit, Nat.sub_zero, Nat.zero_mul, Nat.add_zero]
      exact Nat.mul_le_mul_left _ (by omega)
  refine Nat.le_of_mul_le_mul_left (c := P.N + 2) ?_ (by omega)
  simp only [Nat.sub_zero] at e2
  nlinarith

/-- `m` times `push_back(a)`, `pop_back()` -/
def seesaw (a : α) : Nat → List (EndOp α)
  | 0 => []
  | m + 1 => .push a :: .pop :: seesaw a m

theorem seesaw_st (E : Elem α) (hT : NoThrow C) (hR : C.P.R = C.P.N + 1) (a : α) (m : Nat) :
    ∀ {k nx : Nat} {g : List (Buf α)}, Good C .stat k xs nx g → xs.length = C.P.N →
    work C.P E (seesaw a m) (st C .stat k xs nx g) = some (2 * m * (C.P.N + 1)) := by
  induction m with
  | zero => intros; simp [seesaw, work]
  | succ m ih =>
    intro k nx g hG hn
    obtain ⟨k1, nx1, g1, e1, e2, -⟩ := pushBack_st E (v := .val a) hG hT rfl trivial
    have hc : choose C.P.N C.P.R (xs.length + 1) .stat = .dyn (C.P.N + 1) := by simp [choose, hn]
    rw [hc] at e1 e2
    have hx : (xs ++ [a]).length = C.P.N + 1 := by simp [hn]
    obtain ⟨g2, e3, e4⟩ := shrinkAt_st₀ E (pos := C.P.N) (num := 1) e2 (by omega) (Or.inl (by omega))
    have hN := hG.N
    have ht : (xs ++ [a]).take C.P.N ++ (xs ++ [a]).drop (C.P.N + 1) = xs := by
      rw [← hn, List.take_left, List.drop_of_length_le (by simp), List.append_nil]
    have hh : (if 1 = (xs ++ [a]).length then (if 0 < C.P.R then Home.stat else .dyn (C.P.N + 1)) else
        choose C.P.N C.P.R ((xs ++ [a]).length - 1) (.dyn (C.P.N + 1))) = .stat := by
      rw [hx, if_neg (by omega)]
      simp [choose, hR]
    rw [hh, ht] at e3 e4
    have c1 : call C.P E (EndOp.push a).op (st C .stat k xs nx g) = some (.done, st C (.dyn (C.P.N + 1)) k1 (xs ++ [a]) nx1 g1) := by
      simp only [EndOp.op, call, exec, M.bind_apply, e1]; rfl
    have c2 : call C.P E (EndOp.pop : EndOp α).op (st C (.dyn (C.P.N + 1)) k1 (xs ++ [a]) nx1 g1) =
        some (.done, st C .stat k1 xs nx1 g2) := by
      simp only [EndOp.op, call, exec, popBack, M.bind_apply, size_st, hx,
        show ((C.P.N + 1 : Nat) : Int) - 1 = (C.P.N : Int) by omega, e3]
      rfl
    have := ih e4 hn
    simp only [seesaw, work, c1, c2, this, Option.bind_eq_bind, Option.bind_some, cost_st, hn, hx]
    rw [if_neg (by simp [loc]), if_neg (by simp [loc])]
    congr 1
    rw [show min C.P.N (C.P.N + 1) = C.P.N by omega, show min (C.P.N + 1) C.P.N = C.P.N by omega]
    nlinarith

/-- **C68, the limit.** With `RevertToStaticBelow = StaticCapacity + 1`, which the class allows and its documentation uses,
a full static buffer and `m` times `push_back`, `pop_back`: every single call allocates or frees and moves all `N`
elements. The bound is not independent of the capacity there, unlike that of `std::vector`. -/
theorem C68_limit_seesaw (P : Params) (E : Elem α) (hN : 0 < P.N) (hR : P.R = P.N + 1) (xs : List α) (s : St α)
    (hr : Reaches P E .stat xs s) (hn : xs.length = P.N) (a : α) (m : Nat) :
    work P E (seesaw a m) s = some (2 * m * (P.N + 1)) ∧ (seesaw a m).length = 2 * m := by
  obtain ⟨C, k, nx, g, rfl, hT, rfl, hG⟩ := reaches_st hN (by omega) hr
  refine ⟨seesaw_st E hT hR a m hG hn, ?_⟩
  induction m with
  | zero => rfl
  | succ m ih => simp [seesaw, ih]; omega

/-- a history that goes to the heap, grows there and comes back -/
def demoEnd : List (EndOp Nat) :=
  [.push 1, .emplace 2, .push 3, .push 4, .push 5, .emplace 6, .pop, .pop, .pop, .pop, .pop, .pop, .pop, .push 1]

/-- the elements are moved when 3, 4 (heap, capacity 3, then 5) and 6 (capacity 8) are appended -/
example : work ⟨2, 0⟩ ⟨id, 0⟩ demoEnd (new ⟨2, 0⟩) = some (3 + 4 + 6) := by decide +kernel

/-- and, if going back is asked for, once more when there is less than two left -/
example : work ⟨2, 2⟩ ⟨id, 0⟩ demoEnd (new ⟨2, 2⟩) = some (3 + 4 + 6 + 2) := by decide +kernel

example : ∃ s : St Nat, Reaches ⟨4, 5⟩ ⟨id, 0⟩ .stat [1, 2, 3, 4] s ∧ work ⟨4, 5⟩ ⟨id, 0⟩ (seesaw 7 3) s = some 30 := by
  refine ⟨_, ⟨[.pushBack (.val 1), .pushBack (.val 2), .pushBack (.val 3), .pushBack (.val 4)], [.done, .done, .done, .done],
    rfl, by simp [SafeRun, Safe, step, Stable, argVal, choose], rfl⟩, by decide +kernel⟩

end Itlib.SmallVector
