import Verif.QAlg.Model
import Verif.Core.Tac
import Mathlib.Data.List.Basic

/-! # Properties of qalgorithm (C36) -/
namespace Itlib.QAlg
open Itlib M

variable {T V : Type}

/-- a container without moved-from elements -/
def full (xs : List T) : List (Cell T) := xs.map .val

/-! ### The loops -/

/-- outcome of a test -/
def out (o : Option Bool) (c : List (Cell T)) : Res (List (Cell T)) Bool :=
  match o with
  | some b => .ok b c
  | none => .throw .user c

/-- `test` computes `p` on elements as long as `Inv` holds. -/
def Computes (Inv : List (Cell T) → Prop) (test : Nat → Q T Bool) (p : T → Option Bool) : Prop :=
  ∀ c i x, Inv c → c[i]? = some (.val x) → test i c = out (p x) c

theorem rd_val {c : List (Cell T)} {i : Nat} {x : T} (h : c[i]? = some (.val x)) : rd i c = .ok x c := by simp [rd, load, h]

/-- outcome of a search that ends before `b` -/
def findRes (p : T → Option Bool) (b : List T) (i : Nat) (c : List (Cell T)) : Res (List (Cell T)) Nat :=
  match b with
  | [] => .ok i c
  | x :: _ => if p x = none then .throw .user c else .ok i c

/-- outcome of a removal that ends before `b` -/
def endRes (b : List T) (i : Nat) (c : List (Cell T)) : Res (List (Cell T)) Nat :=
  match b with
  | [] => .ok i c
  | _ :: _ => .throw .user c

theorem findIf_spec {Inv : List (Cell T) → Prop} {test : Nat → Q T Bool} {p : T → Option Bool} (ht : Computes Inv test p) :
    ∀ (a b pre : List T), Inv (full (pre ++ a ++ b)) → (∀ x ∈ a, p x = some false) →
    (∀ x, b.head? = some x → p x ≠ some false) →
    findIf test (a.length + b.length) pre.length (full (pre ++ a ++ b)) =
      findRes p b (pre.length + a.length) (full (pre ++ a ++ b)) := by
  intro a
  induction a with
  | nil =>
    intro b pre hI _ hb
    cases b with
    | nil => rfl
    | cons x b =>
      have h : (full (pre ++ [] ++ x :: b))[pre.length]? = some (Cell.val x) := by simp [full]
      have h2 := hb x rfl
      simp only [List.length_nil, List.length_cons, Nat.zero_add, findIf, bind_apply, ht _ _ _ hI h]
      match hp : p x with
      | none => simp [out, findRes, hp]
      | some true => simp [out, findRes, hp]
      | some false => exact absurd hp h2
  | cons y a ih =>
    intro b pre hI ha hb
    have h : (full (pre ++ y :: a ++ b))[pre.length]? = some (Cell.val y) := by simp [full]
    have h2 := ha y (by simp)
    have e : a.length + 1 + b.length = (a.length + b.length) + 1 := by omega
    have e2 : pre ++ y :: a ++ b = pre ++ [y] ++ a ++ b := by simp
    have := ih b (pre ++ [y]) (by rw [← e2]; exact hI) (fun x hx => ha x (by simp [hx])) hb
    rw [← e2] at this
    simp only [List.length_append, List.length_singleton] at this
    simp only [List.length_cons, e, findIf, bind_apply, ht _ _ _ hI h, h2, out, Bool.false_eq_true, if_false, this]
    rw [show pre.length + 1 + a.length = pre.length + (a.length + 1) by omega]

/-- what is kept -/
def keeps (p : T → Option Bool) (x : T) : Bool := p x == some false

theorem moveTo_spec (kept : List T) (j0 : Cell T) (junk : List (Cell T)) (x : T) (rest : List (Cell T)) :
    moveTo kept.length (kept.length + (junk.length + 1)) (full kept ++ j0 :: junk ++ .val x :: rest) =
      .ok () (full (kept ++ [x]) ++ (junk ++ [.moved]) ++ rest) := by
  have h : (full kept ++ j0 :: junk ++ Cell.val x :: rest)[kept.length + (junk.length + 1)]? = some (.val x) := by
    rw [List.getElem?_append_right (by simp [full])]
    simp [full]
  simp only [moveTo, bind_apply, rd_val h, M.mem]
  rw [if_pos (by simp [full])]
  simp only [Res.ok.injEq, true_and]
  have e1 : (full kept ++ j0 :: junk ++ Cell.val x :: rest).set (kept.length + (junk.length + 1)) .moved =
      full kept ++ (j0 :: (junk ++ Cell.moved :: rest)) := by
    rw [List.set_append_right _ _ (by simp [full])]
    simp [full, List.append_assoc]
  rw [e1, List.set_append_right _ _ (by simp [full])]
  simp [full]

theorem removeLoop_spec {Inv : List (Cell T) → Prop} {test : Nat → Q T Bool} {p : T → Option Bool} (ht : Computes Inv test p)
    (lo bound : Nat)
    (hmove : ∀ c r i x, Inv c → c[i]? = some (.val x) → p x = some false → lo ≤ r → r < bound → r < i →
      Inv ((c.set i .moved).set r (.val x))) :
    ∀ (a b : List T) (kept : List T) (junk : List (Cell T)), junk ≠ [] → lo ≤ kept.length →
    Inv (full kept ++ junk ++ full (a ++ b)) →
    (∀ x ∈ a, p x ≠ none) → (∀ x, b.head? = some x → p x = none) →
    kept.length + (a.filter (keeps p)).length ≤ bound →
    ∃ junk', junk'.length + (a.filter (keeps p)).length = junk.length + a.length ∧
      removeLoop test (a.length + b.length) (kept.length + junk.length) kept.length (full kept ++ junk ++ full (a ++ b)) =
        endRes b (kept.length + (a.filter (keeps p)).length) (full (kept ++ a.filter (keeps p)) ++ junk' ++ full b) := by
  intro a
  induction a with
  | nil =>
    intro b kept junk hj hlo hI _ hb _
    refine ⟨junk, by simp, ?_⟩
    cases b with
    | nil => simp [removeLoop, endRes]
    | cons x b =>
      have h : (full kept ++ junk ++ full ([] ++ x :: b))[kept.length + junk.length]? = some (Cell.val x) := by
        rw [List.getElem?_append_right (by simp [full])]; simp [full]
      have ht' := ht _ _ _ hI h
      rw [hb x rfl] at ht'
      have hl : ([] : List T).length + (x :: b).length = b.length + 1 := by simp
      rw [hl]
      simp only [removeLoop, bind_apply, ht', out, endRes]
      simp
  | cons y a ih =>
    intro b kept junk hj hlo hI ha hb hle
    have h : (full kept ++ junk ++ full (y :: a ++ b))[kept.length + junk.length]? = some (Cell.val y) := by
      rw [List.getElem?_append_right (by simp [full])]; simp [full]
    have e : a.length + 1 + b.length = (a.length + b.length) + 1 := by omega
    match hp : p y with
    | none => exact absurd hp (ha y (by simp))
    | some true =>
      have hk : keeps p y = false := by simp [keeps, hp]
      have e2 : full kept ++ junk ++ full (y :: a ++ b) = full kept ++ (junk ++ [.val y]) ++ full (a ++ b) := by simp [full]
      obtain ⟨j', hl, hr⟩ := ih b kept (junk ++ [.val y]) (by simp) hlo (by rw [← e2]; exact hI) (fun x hx => ha x (by simp [hx])) hb
        (by simpa [List.filter_cons, hk] using hle)
      refine ⟨j', ?_, ?_⟩
      · simp only [List.filter_cons, hk, Bool.false_eq_true, if_false, List.length_cons]
        simp at hl; omega
      · simp only [List.length_cons, e, removeLoop, bind_apply, ht _ _ _ hI h, hp, out, if_true, List.filter_cons, hk,
          Bool.false_eq_true, if_false]
        rw [e2, ← hr]
        congr 1
        simp; omega
    | some false =>
      have hk : keeps p y = true := by simp [keeps, hp]
      obtain ⟨j0, junk1, rfl⟩ : ∃ j0 junk1, junk = j0 :: junk1 := by
        cases junk with
        | nil => exact absurd rfl hj
        | cons a b => exact ⟨a, b, rfl⟩
      have hmv := moveTo_spec kept j0 junk1 y (full (a ++ b))
      have e3 : full kept ++ j0 :: junk1 ++ Cell.val y :: full (a ++ b) = full kept ++ j0 :: junk1 ++ full (y :: a ++ b) := by simp [full]
      rw [e3] at hmv
      simp only [List.filter_cons, hk, if_true, List.length_cons] at hle
      have hI' := hmove _ kept.length (kept.length + (junk1.length + 1)) y hI h hp hlo (by omega) (by omega)
      have e4 : (((full kept ++ j0 :: junk1 ++ full (y :: a ++ b)).set (kept.length + (junk1.length + 1)) .moved).set kept.length (.val y)) =
          full (kept ++ [y]) ++ (junk1 ++ [.moved]) ++ full (a ++ b) := by
        have := hmv
        simp only [List.length_cons] at h
        simp only [moveTo, bind_apply, rd_val h, M.mem] at this
        rw [if_pos (by simp [full])] at this
        simpa using this
      rw [e4] at hI'
      obtain ⟨j', hl, hr⟩ := ih b (kept ++ [y]) (junk1 ++ [.moved]) (by simp) (by simp; omega) hI' (fun x hx => ha x (by simp [hx])) hb
        (by simp; omega)
      refine ⟨j', ?_, ?_⟩
      · simp only [List.filter_cons, hk, if_true, List.length_cons]
        simp at hl; omega
      · simp only [List.length_cons] at h
        have e5 : (kept ++ [y]).length + (junk1 ++ [Cell.moved (T := T)]).length = kept.length + (junk1.length + 1) + 1 := by
          simp; omega
        rw [e5] at hr
        simp only [List.length_append, List.length_singleton] at hr
        simp only [List.length_cons, e, removeLoop, bind_apply, ht _ _ _ hI h, hp, out, Bool.false_eq_true, if_false, hmv, hr,
          List.filter_cons, hk, if_true]
        simp only [List.append_assoc, List.singleton_append, List.length_cons]
        congr 1
        omega

theorem computes_pred (p : T → Option Bool) : Computes (fun _ => True) (testPred p) p := by
  intro c i x _ h
  simp only [testPred, bind_apply, rd_val h]
  cases p x <;> rfl

/-- The value a reference denotes. -/
def Denotes (asV : T → V) (c : List (Cell T)) : Ref V → V → Prop
  | .ext v, w => v = w
  | .elem i, w => ∃ x, c[i]? = some (.val x) ∧ asV x = w

theorem computes_val (eq : T → V → Bool) (asV : T → V) (r : Ref V) (v : V) :
    Computes (fun c => Denotes asV c r v) (testVal eq asV r) (fun x => some (eq x v)) := by
  intro c i x hI h
  cases r with
  | ext w =>
    cases hI
    simp [testVal, rd_val h, Ref.read, out]
  | elem k =>
    obtain ⟨y, hy, rfl⟩ := hI
    simp [testVal, rd_val h, Ref.read, rd_val hy, out]

/-- Splitting at the first element that is not false. -/
theorem split_first (p : T → Option Bool) (xs : List T) :
    ∃ a b, xs = a ++ b ∧ (∀ x ∈ a, p x = some false) ∧ ∀ x, b.head? = some x → p x ≠ some false := by
  induction xs with
  | nil => exact ⟨[], [], rfl, by simp, by simp⟩
  | cons y ys ih =>
    by_cases h : p y = some false
    · obtain ⟨a, b, rfl, h1, h2⟩ := ih
      refine ⟨y :: a, b, rfl, ?_, h2⟩
      intro x hx
      rcases List.mem_cons.mp hx with rfl | hx
      · exact h
      · exact h1 x hx
    · exact ⟨[], y :: ys, rfl, by simp, by simp [h]⟩

/-- Splitting at the first element on which the predicate throws. -/
theorem split_throw (p : T → Option Bool) (xs : List T) :
    ∃ a b, xs = a ++ b ∧ (∀ x ∈ a, p x ≠ none) ∧ ∀ x, b.head? = some x → p x = none := by
  induction xs with
  | nil => exact ⟨[], [], rfl, by simp, by simp⟩
  | cons y ys ih =>
    by_cases h : p y = none
    · exact ⟨[], y :: ys, rfl, by simp, by simp [h]⟩
    · obtain ⟨a, b, rfl, h1, h2⟩ := ih
      refine ⟨y :: a, b, rfl, ?_, h2⟩
      intro x hx
      rcases List.mem_cons.mp hx with rfl | hx
      · exact h
      · exact h1 x hx

theorem qfind_spec {Inv : List (Cell T) → Prop} {test : Nat → Q T Bool} {p : T → Option Bool} (ht : Computes Inv test p)
    (a b : List T) (hI : Inv (full (a ++ b))) (ha : ∀ x ∈ a, p x = some false)
    (hb : ∀ x, b.head? = some x → p x ≠ some false) :
    findIf test (full (a ++ b)).length 0 (full (a ++ b)) =
      findRes p b a.length (full (a ++ b)) := by
  have := findIf_spec ht a b [] (by simpa using hI) ha hb
  simp only [List.nil_append, List.length_nil, Nat.zero_add] at this
  rw [show (full (a ++ b)).length = a.length + b.length by simp [full], this]

/-! ### Finding -/

/-- What a search finds: `i` is the first position where the predicate is not false, or the size. -/
structure First (p : T → Option Bool) (xs : List T) (i : Nat) : Prop where
  le : i ≤ xs.length
  before : ∀ j (h : j < xs.length), j < i → p xs[j] = some false
  at' : ∀ h : i < xs.length, p xs[i] ≠ some false

theorem find_cases {Inv : List (Cell T) → Prop} {test : Nat → Q T Bool} {p : T → Option Bool} (ht : Computes Inv test p)
    (xs : List T) (hI : Inv (full xs)) :
    ∃ i, First p xs i ∧
      (findIf test (full xs).length 0 (full xs) =
        if h : i < xs.length then (if p xs[i] = none then .throw .user (full xs) else .ok i (full xs)) else .ok i (full xs)) := by
  obtain ⟨a, b, rfl, ha, hb⟩ := split_first p xs
  refine ⟨a.length, ⟨by simp, ?_, ?_⟩, ?_⟩
  · intro j h hj
    rw [List.getElem_append_left hj]
    exact ha _ (List.getElem_mem hj)
  · intro h
    have hl : 0 < b.length := by simp at h; omega
    rw [List.getElem_append_right (Nat.le_refl _)]
    apply hb
    cases b with
    | nil => simp at hl
    | cons x b => simp
  · rw [qfind_spec ht a b hI ha hb]
    cases b with
    | nil => simp [findRes]
    | cons x b => simp [findRes]

/-- C36. `qfind_if` returns the position of the first element that matches, or the end, and `pfind_if` the pointer to it, or
null; if the predicate throws before that, so do they. The container is as before. For every sequence and every predicate. -/
theorem C36_find_if (p : T → Option Bool) (xs : List T) :
    ∃ i, First p xs i ∧
      (∀ h : i < xs.length, p xs[i] = some true → qfind (testPred p) (full xs) = .ok i (full xs) ∧
        pfind (testPred p) (full xs) = .ok (some i) (full xs)) ∧
      (∀ h : i < xs.length, p xs[i] = none → qfind (testPred p) (full xs) = .throw .user (full xs) ∧
        pfind (testPred p) (full xs) = .throw .user (full xs)) ∧
      (i = xs.length → qfind (testPred p) (full xs) = .ok i (full xs) ∧ pfind (testPred p) (full xs) = .ok none (full xs)) := by
  obtain ⟨i, hf, hr⟩ := find_cases (computes_pred p) xs trivial
  refine ⟨i, hf, ?_, ?_, ?_⟩
  · intro h hp
    rw [dif_pos h, if_neg (by simp [hp])] at hr
    have hrd : rd i (full xs) = .ok xs[i] (full xs) := rd_val (by simp [full, h])
    have hne : i ≠ (full xs).length := by simp [full]; omega
    simp [qfind, pfind, size, hr, hrd, hne]
  · intro h hp
    rw [dif_pos h, if_pos hp] at hr
    simp [qfind, pfind, size, hr]
  · intro h
    rw [dif_neg (by omega)] at hr
    have he : i = (full xs).length := by simp [full, h]
    simp only [qfind, pfind, size, bind_apply, get_apply, pure_apply, hr, if_pos he, and_self]

/-- C36. `qfind` and `pfind` of a value, also of a value that is (part of) an element of the container. -/
theorem C36_find (eq : T → V → Bool) (asV : T → V) (r : Ref V) (v : V) (xs : List T) (hr : Denotes asV (full xs) r v) :
    ∃ i, First (fun x => some (eq x v)) xs i ∧ qfind (testVal eq asV r) (full xs) = .ok i (full xs) ∧
      pfind (testVal eq asV r) (full xs) = .ok (if i < xs.length then some i else none) (full xs) := by
  obtain ⟨i, hf, h⟩ := find_cases (computes_val eq asV r v) xs hr
  have h' : findIf (testVal eq asV r) (full xs).length 0 (full xs) = .ok i (full xs) := by
    rw [h]; split <;> simp
  refine ⟨i, hf, by simp [qfind, size, h'], ?_⟩
  have hl : (full xs).length = xs.length := by simp [full]
  have := hf.le
  by_cases hi : i < xs.length
  · have hrd : rd i (full xs) = .ok xs[i] (full xs) := rd_val (by simp [full, hi])
    have hne : i ≠ (full xs).length := by omega
    simp [pfind, size, h', hne, hrd, hi]
  · have he : i = (full xs).length := by omega
    simp only [pfind, size, bind_apply, get_apply, pure_apply, h', if_pos he, if_neg hi]

/-! ### Erasing -/

theorem eraseFirst_spec {Inv : List (Cell T) → Prop} {test : Nat → Q T Bool} {p : T → Bool} (ht : Computes Inv test fun x => some (p x))
    (xs : List T) (hI : Inv (full xs)) : eraseFirst test (full xs) = .ok (xs.any p) (full (xs.eraseP p)) := by
  obtain ⟨a, b, rfl, ha, hb⟩ := split_first (fun x => some (p x)) xs
  have h := qfind_spec ht a b hI ha hb
  simp only [Option.some.injEq] at ha
  cases b with
  | nil =>
    have e : a.eraseP p = a := List.eraseP_of_forall_not (fun x hx => by simp [ha x hx])
    have e2 : a.any p = false := by simp only [List.any_eq_false]; intro x hx; simp [ha x hx]
    simp only [List.append_nil, findRes] at h ⊢
    simp only [eraseFirst, qfind, size, bind_apply, get_apply, pure_apply, h, e, e2]
    rw [if_pos (by simp [full])]; rfl
  | cons x b =>
    have hx : p x = true := by have := hb x rfl; simpa using this
    have e : (a ++ x :: b).eraseP p = a ++ b := by
      rw [List.eraseP_append_right _ (fun y hy => by simp [ha y hy])]
      simp [hx]
    have e2 : (a ++ x :: b).any p = true := by simp [hx]
    simp only [findRes, reduceCtorEq, if_false] at h
    simp only [eraseFirst, qfind, size, bind_apply, get_apply, pure_apply, h, e, e2]
    rw [if_neg (by simp [full])]
    have e3 : (full (a ++ x :: b)).eraseIdx a.length = full (a ++ b) := by
      simp only [full, List.map_append, List.map_cons]
      rw [List.eraseIdx_append_of_length_le (by simp)]
      simp
    simp only [bind_apply, erase1, M.mem, if_pos (show a.length < (full (a ++ x :: b)).length by simp [full]), e3, pure_apply]

/-- C36. `erase_first_if` removes exactly the first match, if there is one, and tells whether there was. -/
theorem C36_erase_first_if (p : T → Bool) (xs : List T) :
    eraseFirst (testPred fun x => some (p x)) (full xs) = .ok (xs.any p) (full (xs.eraseP p)) :=
  eraseFirst_spec (computes_pred _) xs trivial

/-- C36. `erase_first` removes exactly the first element equal to the value, also if the value is (part of) an element. -/
theorem C36_erase_first (eq : T → V → Bool) (asV : T → V) (r : Ref V) (v : V) (xs : List T) (hr : Denotes asV (full xs) r v) :
    eraseFirst (testVal eq asV r) (full xs) = .ok (xs.any (eq · v)) (full (xs.eraseP (eq · v))) :=
  eraseFirst_spec (computes_val eq asV r v) xs hr

/-- C36. If the predicate throws, `erase_first_if` throws and has erased nothing. -/
theorem C36_erase_first_if_throw (p : T → Option Bool) (a b : List T) (x : T) (ha : ∀ y ∈ a, p y = some false) (hx : p x = none) :
    eraseFirst (testPred p) (full (a ++ x :: b)) = .throw .user (full (a ++ x :: b)) := by
  have h := qfind_spec (computes_pred p) a (x :: b) trivial ha (by simp [hx])
  simp only [findRes, hx, if_true] at h
  simp only [eraseFirst, qfind, size, bind_apply, get_apply, pure_apply, h]

theorem removeIf_spec {Inv : List (Cell T) → Prop} {test : Nat → Q T Bool} {p : T → Option Bool} (ht : Computes Inv test p)
    (bound : Nat)
    (hmove : ∀ c r i x, Inv c → c[i]? = some (.val x) → p x = some false → r < bound → r < i → Inv ((c.set i .moved).set r (.val x)))
    (a b : List T) (hI : Inv (full (a ++ b))) (ha : ∀ x ∈ a, p x ≠ none) (hb : ∀ x, b.head? = some x → p x = none)
    (hle : (a.filter (keeps p)).length ≤ bound) :
    ∃ junk, junk.length + (a.filter (keeps p)).length = a.length ∧
      removeIf test (full (a ++ b)) = endRes b (a.filter (keeps p)).length (full (a.filter (keeps p)) ++ junk ++ full b) := by
  obtain ⟨a1, a2, rfl, h1, h2⟩ := split_first p a
  have hk1 : a1.filter (keeps p) = a1 := List.filter_eq_self.mpr (fun x hx => by simp [keeps, h1 x hx])
  cases a2 with
  | nil =>
    have hf := qfind_spec ht a1 b (by simpa using hI) h1 (fun x hx => by simp [hb x hx])
    simp only [List.append_nil, hk1]
    refine ⟨[], by simp, ?_⟩
    cases b with
    | nil =>
      simp only [List.append_nil, findRes] at hf
      simp only [removeIf, size, bind_apply, get_apply, pure_apply, List.append_nil, hf]
      rw [if_pos (by simp [full])]; simp [full, endRes]
    | cons x b =>
      simp only [findRes, hb x rfl, if_true] at hf
      simp only [removeIf, size, bind_apply, get_apply, pure_apply, hf]
      simp [full, endRes]
  | cons y a2 =>
    have hy : p y = some true := by
      have h3 := h2 y rfl
      have h4 := ha y (by simp)
      match hp : p y with
      | none => exact absurd hp h4
      | some false => exact absurd hp h3
      | some true => rfl
    have hky : keeps p y = false := by simp [keeps, hy]
    have hf := qfind_spec ht a1 (y :: a2 ++ b) (by simpa using hI) h1 (by simp [hy])
    simp only [List.cons_append, findRes, hy, reduceCtorEq, if_false] at hf
    have e : full (a1 ++ y :: a2 ++ b) = full a1 ++ [.val y] ++ full (a2 ++ b) := by simp [full]
    have hkk : (a1 ++ y :: a2).filter (keeps p) = a1 ++ a2.filter (keeps p) := by simp [List.filter_append, hk1, hky]
    rw [hkk] at hle ⊢
    obtain ⟨j, hl, hr⟩ := removeLoop_spec ht 0 bound (fun c r i x h1 h2 h3 _ => hmove c r i x h1 h2 h3) a2 b a1 [.val y] (by simp) (Nat.zero_le _) (by rw [← e]; exact hI)
      (fun x hx => ha x (by simp [hx])) hb (by simpa using hle)
    refine ⟨j, ?_, ?_⟩
    · simp at hl ⊢; omega
    · have e2 : a1 ++ y :: a2 ++ b = a1 ++ y :: (a2 ++ b) := by simp
      rw [← e2] at hf
      have e3 : (full (a1 ++ y :: a2 ++ b)).length - (a1.length + 1) = a2.length + b.length := by simp [full]; omega
      simp only [removeIf, size, bind_apply, get_apply, pure_apply, hf]
      rw [if_neg (by simp [full]), e3, e]
      simp only [List.length_singleton] at hr
      rw [hr]
      cases b <;> simp

theorem eraseAll_of_removeIf {test : Nat → Q T Bool} {q : T → Bool} {xs : List T} {junk : List (Cell T)}
    (hl : junk.length + (xs.filter fun x => !q x).length = xs.length)
    (h : removeIf test (full xs) = .ok (xs.filter fun x => !q x).length (full (xs.filter fun x => !q x) ++ junk)) :
    eraseAll test (full xs) = .ok (xs.countP q) (full (xs.filter fun x => !q x)) := by
  have hc : xs.length = xs.countP q + xs.countP (fun x => !q x) := by
    rw [List.length_eq_countP_add_countP q (l := xs)]
    congr 1
    exact List.countP_congr (fun x _ => by simp)
  rw [List.countP_eq_length_filter (p := fun x => !q x)] at hc
  generalize hf : (xs.filter fun x => !q x) = ys at *
  have hlen : (full ys ++ junk).length = ys.length + junk.length := by simp [full]
  simp only [eraseAll, size, bind_apply, get_apply, pure_apply, h, eraseRange, M.mem, hlen]
  rw [if_pos ⟨by omega, by omega⟩]
  simp only [Res.ok.injEq]
  refine ⟨by omega, ?_⟩
  rw [← hlen, List.drop_length, List.append_nil]
  exact List.take_left' (by simp [full])

theorem keeps_total (q : T → Bool) : keeps (fun x => some (q x)) = fun x => !q x := by
  funext x; simp [keeps]

/-- C36. `erase_all_if` keeps exactly the elements that do not match, in order, and returns the number of those that do. -/
theorem C36_erase_all_if (p : T → Bool) (xs : List T) :
    eraseAll (testPred fun x => some (p x)) (full xs) = .ok (xs.countP p) (full (xs.filter fun x => !p x)) := by
  obtain ⟨j, hl, hr⟩ := removeIf_spec (computes_pred fun x => some (p x)) (xs.length + 1) (fun _ _ _ _ _ _ _ _ _ => trivial) xs []
    trivial (by simp) (by simp) (by have := List.length_filter_le (keeps fun x => some (p x)) xs; omega)
  rw [keeps_total] at hl hr
  exact eraseAll_of_removeIf hl (by simpa [full, endRes] using hr)

/-- C36. If the predicate throws, `erase_all_if` throws; the container has the same size, the elements to keep among those
seen are in front, in order, and the elements from the throwing one on are untouched. -/
theorem C36_erase_all_if_throw (p : T → Option Bool) (a b : List T) (x : T) (ha : ∀ y ∈ a, p y ≠ none) (hx : p x = none) :
    ∃ junk, junk.length + (a.filter (keeps p)).length = a.length ∧
      eraseAll (testPred p) (full (a ++ x :: b)) = .throw .user (full (a.filter (keeps p)) ++ junk ++ full (x :: b)) := by
  obtain ⟨j, hl, hr⟩ := removeIf_spec (computes_pred p) (a.length + 1) (fun _ _ _ _ _ _ _ _ _ => trivial) a (x :: b)
    trivial ha (by simp [hx]) (by have := List.length_filter_le (keeps p) a; omega)
  exact ⟨j, hl, by simp only [eraseAll, bind_apply, hr, endRes]⟩

/-- C36. `erase_all` of a value outside of the container keeps exactly the elements not equal to it and returns the number of
the others. Of a value that is (part of) the element at `i`, it does if at most `i` elements remain. Missing: other references
into the container, see the defect theorem. -/
theorem C36_erase_all_partial (eq : T → V → Bool) (asV : T → V) (r : Ref V) (v : V) (xs : List T) (hr : Denotes asV (full xs) r v)
    (hs : ∀ i, r = .elem i → (∀ x, eq x (asV x) = true) ∧ (xs.filter fun x => !eq x v).length ≤ i) :
    eraseAll (testVal eq asV r) (full xs) = .ok (xs.countP (eq · v)) (full (xs.filter fun x => !eq x v)) := by
  have key : ∀ bound, (xs.filter fun x => !eq x v).length ≤ bound →
      (∀ c r' i x, Denotes asV c r v → c[i]? = some (.val x) → (some (eq x v) = some false) → r' < bound → r' < i →
        Denotes asV ((c.set i .moved).set r' (.val x)) r v) →
      eraseAll (testVal eq asV r) (full xs) = .ok (xs.countP (eq · v)) (full (xs.filter fun x => !eq x v)) := by
    intro bound hb hm
    obtain ⟨j, hl, hres⟩ := removeIf_spec (computes_val eq asV r v) bound hm xs [] (by simpa using hr) (by simp) (by simp)
      (by rw [keeps_total]; exact hb)
    rw [keeps_total] at hl hres
    exact eraseAll_of_removeIf hl (by simpa [full, endRes] using hres)
  cases r with
  | ext w => exact key _ (Nat.le_refl _) (fun c r' i x h _ _ _ _ => h)
  | elem k =>
    obtain ⟨hrefl, hle⟩ := hs k rfl
    refine key k hle ?_
    rintro c r' i x ⟨y, hy, rfl⟩ hx hf hr' hlt
    refine ⟨y, ?_, rfl⟩
    have hik : i ≠ k := by
      rintro rfl
      rw [hx] at hy
      simp only [Option.some.injEq, Cell.val.injEq] at hy
      subst hy
      simp [hrefl x] at hf
    rw [List.getElem?_set_ne (by omega), List.getElem?_set_ne hik]
    exact hy

/-- C36, defect. `erase_all(c, c[i])`, where `c[i]` is the first element with its value, followed by a different one and by
another one with the value: the algorithm overwrites `c[i]` while it still compares with it, and an element that should be
erased stays. For every prefix, every continuation, and all values. -/
theorem C36_erase_all_alias_defect (eq : T → T → Bool) (v x : T) (hx : eq x v = false) (hx' : eq v x = false) (hv : eq v v = true)
    (pre post : List T) (hpre : ∀ y ∈ pre, eq y v = false) :
    ∃ n c, eraseAll (testVal eq id (.elem pre.length)) (full (pre ++ v :: x :: v :: post)) = .ok n c ∧
      c[pre.length + 1]? = some (.val v) := by
  have hfirst := qfind_spec (computes_val eq id (.elem pre.length) v) pre (v :: x :: v :: post)
    ⟨v, by simp [full], rfl⟩ (by simpa using hpre) (by simp [hv])
  simp only [findRes, hv, reduceCtorEq, if_false] at hfirst
  -- after two rounds the reference denotes `x`
  have h1 : (full (pre ++ v :: x :: v :: post))[pre.length + 1]? = some (Cell.val x) := by
    rw [full, List.map_append, List.getElem?_append_right (by simp)]; simp
  have h2 : (full (pre ++ v :: x :: v :: post))[pre.length]? = some (Cell.val v) := by simp [full]
  have m1 := moveTo_spec pre (.val v) [] x (full (v :: post))
  have e1 : full pre ++ Cell.val v :: [] ++ Cell.val x :: full (v :: post) = full (pre ++ v :: x :: v :: post) := by simp [full]
  simp only [List.length_nil, Nat.zero_add] at m1
  rw [e1] at m1
  have hI : Denotes id (full (pre ++ [x]) ++ ([] ++ [Cell.moved]) ++ full (v :: post)) (.elem pre.length) x := ⟨x, by simp [full], rfl⟩
  have hI2 : Denotes id (full (pre ++ [x] ++ [v]) ++ ([] ++ [Cell.moved]) ++ full post) (.elem pre.length) x := ⟨x, by simp [full], rfl⟩
  have h3 : (full (pre ++ [x]) ++ ([] ++ [Cell.moved]) ++ full (v :: post))[pre.length + 1 + 1]? = some (Cell.val v) := by
    rw [List.getElem?_append_right (by simp [full])]; simp [full]
  have m2 := moveTo_spec (pre ++ [x]) .moved [] v (full post)
  have e2 : full (pre ++ [x]) ++ Cell.moved :: [] ++ Cell.val v :: full post =
      full (pre ++ [x]) ++ ([] ++ [Cell.moved]) ++ full (v :: post) := by simp [full]
  simp only [List.length_nil, Nat.zero_add, List.length_append, List.length_singleton] at m2
  rw [e2] at m2
  have t1 := computes_val eq id (.elem pre.length) v _ (pre.length + 1) x ⟨v, h2, rfl⟩ h1
  have t2 := computes_val eq id (.elem pre.length) x _ (pre.length + 1 + 1) v hI h3
  simp only [hx, hx', out] at t1 t2
  have e4 : (full (pre ++ v :: x :: v :: post)).length - (pre.length + 1) = post.length + 1 + 1 := by simp [full]; omega
  -- the rest of the loop, comparing with `x`; the reference is in front of everything that changes
  obtain ⟨j, hl, hr⟩ := removeLoop_spec (computes_val eq id (.elem pre.length) x) (pre.length + 1) (post.length + pre.length + 2)
    (by
      rintro c r i y ⟨z, hz, hz'⟩ _ _ h1 _ h3
      refine ⟨z, ?_, hz'⟩
      rw [List.getElem?_set_ne (by omega), List.getElem?_set_ne (by omega)]
      exact hz) post [] (pre ++ [x] ++ [v]) ([] ++ [.moved]) (by simp) (by simp) (by simpa using hI2) (by simp) (by simp)
    (by have := List.length_filter_le (keeps fun y => some (eq y x)) post; simp; omega)
  rw [keeps_total] at hl hr
  have e5 : (pre ++ [x] ++ [v]).length + (([] : List (Cell T)) ++ [Cell.moved]).length = pre.length + 1 + 1 + 1 := by simp
  have e6 : (pre ++ [x] ++ [v]).length = pre.length + 1 + 1 := by simp
  rw [e5, e6] at hr
  simp only [List.length_nil, Nat.add_zero, List.append_nil, endRes] at hr
  have hrem : removeIf (testVal eq id (.elem pre.length)) (full (pre ++ v :: x :: v :: post)) =
      .ok (pre.length + 1 + 1 + (post.filter fun y => !eq y x).length)
        (full (pre ++ [x] ++ [v] ++ post.filter fun y => !eq y x) ++ j ++ full []) := by
    simp only [removeIf, size, bind_apply, get_apply, pure_apply, hfirst]
    rw [if_neg (by simp [full]), e4]
    simp only [removeLoop, bind_apply, t1, t2, Bool.false_eq_true, if_false, m1, m2]
    exact hr
  generalize hys : (post.filter fun y => !eq y x) = ys at *
  refine ⟨j.length, full (pre ++ [x] ++ [v] ++ ys), ?_, by simp [full]⟩
  have hlen : (full (pre ++ [x] ++ [v] ++ ys) ++ j ++ full []).length = pre.length + 1 + 1 + ys.length + j.length := by
    simp [full]; omega
  simp only [eraseAll, size, bind_apply, get_apply, pure_apply, hrem, eraseRange, M.mem]
  rw [if_pos ⟨by rw [hlen]; omega, Nat.le_refl _⟩]
  simp only [Res.ok.injEq]
  refine ⟨by rw [hlen]; omega, ?_⟩
  rw [List.drop_length, List.append_nil, List.append_assoc]
  exact List.take_left' (by simp [full]; omega)

/-! ### Quantifiers -/

/-- C36. `qall_of`, `qany_of` and `qnone_of` are the quantifiers. -/
theorem C36_quantifiers (p : T → Bool) (xs : List T) :
    qallOf (fun x => some (p x)) (full xs) = .ok (decide (∀ x ∈ xs, p x = true)) (full xs) ∧
    qanyOf (fun x => some (p x)) (full xs) = .ok (decide (∃ x ∈ xs, p x = true)) (full xs) ∧
    qnoneOf (fun x => some (p x)) (full xs) = .ok (decide (∀ x ∈ xs, p x = false)) (full xs) := by
  have key : ∀ q : T → Bool, ∃ i, findIf (testPred fun x => some (q x)) (full xs).length 0 (full xs) = .ok i (full xs) ∧
      (i = (full xs).length ↔ ∀ x ∈ xs, q x = false) := by
    intro q
    obtain ⟨a, b, rfl, ha, hb⟩ := split_first (fun x => some (q x)) xs
    have := qfind_spec (computes_pred fun x => some (q x)) a b trivial ha hb
    simp only [Option.some.injEq] at ha
    refine ⟨a.length, ?_, ?_⟩
    · rw [this]; cases b <;> simp [findRes]
    · cases b with
      | nil => simpa [full] using ha
      | cons y b =>
        have hy : q y ≠ false := by have := hb y rfl; simpa using this
        constructor
        · intro h; simp [full] at h
        · intro h; exact absurd (h y (by simp)) hy
  refine ⟨?_, ?_, ?_⟩
  · obtain ⟨i, h, hi⟩ := key (fun x => !p x)
    simp only [qallOf, size, bind_apply, get_apply, pure_apply, Option.map_some, h, beq_eq_decide]
    congr 1
    rw [decide_eq_decide, hi]
    simp
  · obtain ⟨i, h, hi⟩ := key p
    simp only [qanyOf, size, bind_apply, get_apply, pure_apply, h]
    congr 1
    rw [bne, beq_eq_decide, ← decide_not, decide_eq_decide, hi]
    simp
  · obtain ⟨i, h, hi⟩ := key p
    simp only [qnoneOf, size, bind_apply, get_apply, pure_apply, h, beq_eq_decide]
    congr 1
    rw [decide_eq_decide, hi]

/-! ### Concrete cases -/

example : eraseAll (testPred fun x => some (x % 2 == 0)) (full [1, 2, 3, 4, 6, 5]) = .ok 3 (full [1, 3, 5]) := rfl
example : eraseAll (testVal (· == ·) id (.elem 0)) (full [1, 2, 1, 2]) = .ok 2 (full [2, 1]) := rfl
/-- a reference that is harmless: `erase_all(c, c[3])` -/
example : Denotes id (full [1, 2, 2, 1]) (.elem 3) 1 ∧ ([1, 2, 2, 1].filter fun x => !(x == 1)).length ≤ 3 := ⟨⟨1, rfl, rfl⟩, by decide⟩

end Itlib.QAlg
