import Verif.PodVector.OpLemmas

/-! # Every call on a `pod_vector` does what the specification says -/
namespace Itlib.PodVector
open Itlib

variable {P : Params}

/-- the known elements are in the buffer -/
def Holds (P : Params) (o : Option Own) (xs : List Spec.E) : Prop :=
  ∀ i b, xs[i]? = some (some b) → slotO P o i = b.map some

/-- the vector `s` represents the contents `xs` with capacity `cap`; `h0` is the rest of the heap -/
def Rep (P : Params) (h0 : Heap) (s : St) (cap : Nat) (xs : List Spec.E) : Prop :=
  ∃ o t, s = st P h0 o cap xs.length t ∧ Fits P h0 o cap ∧ xs.length ≤ cap ∧ Holds P o xs

def refOf (P : Params) (o : Option Own) : Arg (List Byte) → Ref
  | .val a => .val a
  | .self i => .slot ((ptrOf o).add (i * P.sz))

theorem bindRef_ok (v : Arg (List Byte)) (h0 : Heap) (o : Option Own) (cap n t : Nat) :
    bindRef P v (st P h0 o cap n t) = .ok (refOf P o v) (st P h0 o cap n t) := by
  cases v <;> rfl

/-- the argument can still be read if it is a value, or an element that has not moved -/
def Kept (P : Params) (o : Option Own) (w : Own) (cap : Nat) : Arg (List Byte) → Prop
  | .val _ => True
  | .self i => i < cap ∧ ptrOf (some w) = ptrOf o ∧ slot P w i = slotO P o i

theorem reads_of {o : Option Own} {w : Own} {cap : Nat} {xs : List Spec.E} {v : Arg (List Byte)} {a : Spec.E}
    (ha : Spec.argVal P.sz xs v = some a) (hh : Holds P o xs) (hk : Kept P o w cap v) :
    ∃ c, Reads P w cap (refOf P o v) c ∧ ∀ b, a = some b → c = b.map some := by
  cases v with
  | val x =>
    simp only [Spec.argVal] at ha
    by_cases hl : x.length = P.sz
    · rw [if_pos hl] at ha
      cases ha
      exact ⟨x.map some, ⟨rfl, hl⟩, fun b hb => by cases hb; rfl⟩
    · rw [if_neg hl] at ha; cases ha
  | self i =>
    obtain ⟨h1, h2, h3⟩ := hk
    refine ⟨slot P w i, ⟨i, h1, ?_, rfl⟩, fun b hb => ?_⟩
    · simp only [← h2]; rfl
    · subst hb
      rw [h3]
      exact hh i b ha

theorem argVal_self_lt {xs : List Spec.E} {i : Nat} {a : Spec.E} (ha : Spec.argVal P.sz xs (.self i) = some a) :
    i < xs.length := by
  simp only [Spec.argVal] at ha
  exact (List.getElem?_eq_some_iff.1 ha).1

theorem holds_nil (o : Option Own) : Holds P o [] := fun i b h => by simp at h

theorem Holds.congr {o o' : Option Own} {xs : List Spec.E} (hh : Holds P o xs)
    (hs : ∀ i, i < xs.length → slotO P o' i = slotO P o i) : Holds P o' xs := fun i b h => by
  rw [hs i (List.getElem?_eq_some_iff.1 h).1]
  exact hh i b h

/-- inserting elements -/
theorem holds_insert {o o' : Option Own} {xs ys : List Spec.E} {pos : Nat} (hh : Holds P o xs) (hp : pos ≤ xs.length)
    (h1 : ∀ i, i < pos → slotO P o' i = slotO P o i)
    (h2 : ∀ i, pos ≤ i → i < xs.length → slotO P o' (i + ys.length) = slotO P o i)
    (h3 : ∀ j b, ys[j]? = some (some b) → slotO P o' (pos + j) = b.map some) :
    Holds P o' (xs.take pos ++ ys ++ xs.drop pos) := by
  intro i b h
  by_cases c1 : i < pos
  · rw [List.append_assoc, List.getElem?_append_left (by simp; omega), List.getElem?_take, if_pos c1] at h
    rw [h1 i c1]; exact hh i b h
  · rw [List.append_assoc, List.getElem?_append_right (by simp; omega)] at h
    rw [List.length_take, Nat.min_eq_left hp] at h
    by_cases c2 : i - pos < ys.length
    · rw [List.getElem?_append_left c2] at h
      have := h3 _ _ h
      rwa [show pos + (i - pos) = i by omega] at this
    · rw [List.getElem?_append_right (by omega), List.getElem?_drop] at h
      have hlt := (List.getElem?_eq_some_iff.1 h).1
      have h4 := h2 (pos + (i - pos - ys.length)) (by omega) hlt
      rw [show pos + (i - pos - ys.length) + ys.length = i by omega] at h4
      rw [h4]; exact hh _ b h

theorem insert_length {xs ys : List Spec.E} {pos : Nat} (hp : pos ≤ xs.length) :
    (xs.take pos ++ ys ++ xs.drop pos).length = xs.length + ys.length := by
  simp; omega

theorem slotOf_flatten (ys : List (List Byte)) (sz : Nat) (hy : ∀ y ∈ ys, y.length = sz) (j : Nat) (y : List Byte)
    (h : ys[j]? = some y) : slotOf sz (ys.flatten.map some) j = y.map some := by
  induction ys generalizing j with
  | nil => simp at h
  | cons z zs ih =>
    have hz := hy z (by simp)
    cases j with
    | zero =>
      simp only [List.getElem?_cons_zero, Option.some.injEq] at h
      subst h
      simp [slotOf, hz]
    | succ j =>
      simp only [List.getElem?_cons_succ] at h
      rw [← ih (fun y h => hy y (by simp [h])) j h]
      simp only [slotOf, List.flatten_cons, List.map_append]
      rw [Nat.add_mul, List.drop_append, List.drop_eq_nil_of_le (by simp [hz])]
      simp [hz]

theorem length_flatten_of (ys : List (List Byte)) (sz : Nat) (hy : ∀ y ∈ ys, y.length = sz) :
    (ys.flatten.map some : List Cell).length = ys.length * sz := by
  induction ys with
  | nil => simp
  | cons z zs ih =>
    have hz := hy z (by simp)
    have := ih (fun y h => hy y (by simp [h]))
    simp only [List.flatten_cons, List.map_append, List.length_append, List.length_map, List.length_cons] at *
    rw [this, hz, Nat.add_mul]; omega

theorem backPtr_ok (h0 : Heap) (w : Own) (cap n t : Nat) :
    backPtr P (st P h0 (some w) cap (n + 1) t) = .ok ⟨w.base, w.off + n * P.sz⟩ (st P h0 (some w) cap (n + 1) t) := by
  have e4 : w.off + (n + 1) * P.sz - P.sz = w.off + n * P.sz := by rw [Nat.add_mul]; omega
  have e5 : ¬ w.off + (n + 1) * P.sz < P.sz := by rw [Nat.add_mul]; omega
  simp only [backPtr, M.bind_apply, M.get_apply, st, ptrOf_some, Ptr.add, e4]
  rw [if_neg e5]
  rfl

/-! ### The calls -/

section
variable (hP : Wf P) {h0 : Heap} (hb : Bdd h0)
include hP hb

theorem insert_rep {s : St} {cap pos : Nat} {xs : List Spec.E} {v : Arg (List Byte)} {a : Spec.E}
    (hr : Rep P h0 s cap xs) (hs : Spec.Safe (.insert pos v) cap xs) (ha : Spec.argVal P.sz xs v = some a)
    (hp : pos ≤ xs.length) :
    ∃ s', insert P pos v s = .ok () s' ∧
      Rep P h0 s' (Spec.newCap cap (xs.length + 1)) (xs.take pos ++ [a] ++ xs.drop pos) := by
  obtain ⟨o, t, rfl, f, hn, hh⟩ := hr
  obtain ⟨o', t', e1, f', gp⟩ := growAt_ok hP hb f xs.length pos 1 t hn hp
  have hN := newCap_ge cap (xs.length + 1)
  obtain ⟨w, rfl⟩ := f'.null_cap (by omega)
  obtain ⟨g, hw⟩ := f'
  have hk : Kept P o w (Spec.newCap cap (xs.length + 1)) v := by
    cases v with
    | val _ => trivial
    | self i =>
      obtain ⟨h1, h2⟩ := hs
      have hi := argVal_self_lt ha
      exact ⟨by omega, (gp.stay h1).1, (gp.stay h1).2 i (by omega) hi⟩
  obtain ⟨c, hc, hc'⟩ := reads_of ha hh hk
  obtain ⟨w', e2, hb2, ho2, g2, hs2⟩ := writeSlot (h0 := h0) g
    (st P h0 (some w) (Spec.newCap cap (xs.length + 1)) (xs.length + 1) t').v t' pos c hc.length (by omega)
  refine ⟨st P h0 (some w') (Spec.newCap cap (xs.length + 1)) (xs.length + 1) t', ?_, some w', t', ?_,
    ⟨g2, by rw [hb2]; exact hw⟩, ?_, ?_⟩
  · simp only [insert, M.bind_apply, bindRef_ok, e1]
    have e3 := loadRef_ok g hc (st P h0 (some w) (Spec.newCap cap (xs.length + 1)) (xs.length + 1) t').v
      (heapOf h0 (some w)) t' (by simp [heapOf])
    simp only [st, ptrOf_some, Ptr.add] at e2 e3 ⊢
    rw [e3]
    simp only [e2, hb2, ho2]
  · rw [insert_length hp]; rfl
  · rw [insert_length hp]; exact hN
  · refine holds_insert hh hp ?_ ?_ ?_
    · intro i hi
      rw [← gp.low i hi]
      show slot P w' i = slot P w i
      rw [hs2, if_neg (by omega)]
    · intro i h1 h2
      rw [← gp.high i h1 h2]
      show slot P w' (i + 1) = slot P w (i + 1)
      rw [hs2, if_neg (by omega)]
    · intro j b hj
      have hj0 : j = 0 := by
        have := (List.getElem?_eq_some_iff.1 hj).1
        simp at this; exact this
      subst hj0
      simp only [List.getElem?_cons_zero, Option.some.injEq] at hj
      show slot P w' pos = _
      rw [hs2, if_pos rfl]
      exact hc' b hj

theorem insertN_rep {s : St} {cap pos n : Nat} {xs : List Spec.E} {v : Arg (List Byte)} {a : Spec.E}
    (hr : Rep P h0 s cap xs) (hs : Spec.Safe (.insertN pos n v) cap xs) (ha : Spec.argVal P.sz xs v = some a)
    (hp : pos ≤ xs.length) :
    ∃ s', insertN P pos n v s = .ok () s' ∧
      Rep P h0 s' (Spec.newCap cap (xs.length + n)) (xs.take pos ++ List.replicate n a ++ xs.drop pos) := by
  obtain ⟨o, t, rfl, f, hn, hh⟩ := hr
  obtain ⟨o', t', e1, f', gp⟩ := growAt_ok hP hb f xs.length pos n t hn hp
  have hN := newCap_ge cap (xs.length + n)
  by_cases hn0 : n = 0
  · subst hn0
    refine ⟨st P h0 o' (Spec.newCap cap (xs.length + 0)) (xs.length + 0) t', ?_, o', t', ?_, f', by simpa using hN, ?_⟩
    · simp only [insertN, M.bind_apply, bindRef_ok, e1, fill, M.pure_apply]
    · simp
    · refine holds_insert hh hp gp.low ?_ ?_
      · intro i h1 h2; simpa using gp.high i h1 h2
      · intro j b hj; simp at hj
  · obtain ⟨w, rfl⟩ := f'.null_cap (by omega)
    obtain ⟨g, hw⟩ := f'
    have hk : Kept P o w (Spec.newCap cap (xs.length + n)) v := by
      cases v with
      | val _ => trivial
      | self i =>
        rcases hs with h | ⟨h1, h2⟩
        · exact absurd h hn0
        · have hi := argVal_self_lt ha
          exact ⟨by omega, (gp.stay h1).1, (gp.stay h1).2 i (by omega) hi⟩
    obtain ⟨c, hc, hc'⟩ := reads_of ha hh hk
    obtain ⟨w', e2, hb2, ho2, g2, hs2⟩ := fill_ok (h0 := h0) g hc
      (st P h0 (some w) (Spec.newCap cap (xs.length + n)) (xs.length + n) t').v t' pos n (by omega)
    refine ⟨st P h0 (some w') (Spec.newCap cap (xs.length + n)) (xs.length + n) t', ?_, some w', t', ?_,
      ⟨g2, by rw [hb2]; exact hw⟩, ?_, ?_⟩
    · simp only [insertN, M.bind_apply, bindRef_ok, e1]
      simp only [st, ptrOf_some, Ptr.add] at e2 ⊢
      simp only [e2, hb2, ho2]
    · rw [insert_length hp, List.length_replicate]
    · rw [insert_length hp, List.length_replicate]; exact hN
    · refine holds_insert hh hp ?_ ?_ ?_
      · intro i hi
        rw [← gp.low i hi]
        show slot P w' i = slot P w i
        rw [hs2, if_neg (by omega)]
      · intro i h1 h2
        rw [List.length_replicate, ← gp.high i h1 h2]
        show slot P w' (i + n) = slot P w (i + n)
        rw [hs2, if_neg (by omega)]
      · intro j b hj
        have hjn := (List.getElem?_eq_some_iff.1 hj).1
        rw [List.length_replicate] at hjn
        rw [List.getElem?_replicate, if_pos hjn] at hj
        simp only [Option.some.injEq] at hj
        show slot P w' (pos + j) = _
        rw [hs2, if_pos (by omega)]
        exact hc' b hj

theorem insertRange_rep {s : St} {cap pos : Nat} {xs : List Spec.E} {ys : List (List Byte)}
    (hr : Rep P h0 s cap xs) (hy : ∀ y ∈ ys, y.length = P.sz) (hp : pos ≤ xs.length) :
    ∃ s', insertRange P pos ys s = .ok () s' ∧
      Rep P h0 s' (Spec.newCap cap (xs.length + ys.length)) (xs.take pos ++ ys.map some ++ xs.drop pos) := by
  obtain ⟨o, t, rfl, f, hn, hh⟩ := hr
  obtain ⟨o', t', e1, f', gp⟩ := growAt_ok hP hb f xs.length pos ys.length t hn hp
  have hN := newCap_ge cap (xs.length + ys.length)
  by_cases hn0 : ys = []
  · subst hn0
    refine ⟨st P h0 o' (Spec.newCap cap (xs.length + 0)) (xs.length + 0) t', ?_, o', t', ?_, f', by simpa using hN, ?_⟩
    · simp only [insertRange, M.bind_apply, e1, copyIn, List.flatten_nil, List.map_nil, if_true, M.pure_apply]
      rfl
    · simp
    · refine holds_insert hh hp gp.low ?_ ?_
      · intro i h1 h2; simpa using gp.high i h1 h2
      · intro j b hj; simp at hj
  · have hpos : 0 < ys.length := List.length_pos_iff.2 hn0
    obtain ⟨w, rfl⟩ := f'.null_cap (by omega)
    obtain ⟨g, hw⟩ := f'
    obtain ⟨w', e2, hb2, ho2, g2, hs2⟩ := copyIn_ok (h0 := h0) g
      (st P h0 (some w) (Spec.newCap cap (xs.length + ys.length)) (xs.length + ys.length) t').v t' pos ys.length
      (ys.flatten.map some) (length_flatten_of ys P.sz hy) (by omega)
    refine ⟨st P h0 (some w') (Spec.newCap cap (xs.length + ys.length)) (xs.length + ys.length) t', ?_, some w', t', ?_,
      ⟨g2, by rw [hb2]; exact hw⟩, ?_, ?_⟩
    · simp only [insertRange, M.bind_apply, e1]
      simp only [st, ptrOf_some, Ptr.add] at e2 ⊢
      simp only [e2, hb2, ho2]
    · rw [insert_length hp, List.length_map]
    · rw [insert_length hp, List.length_map]; exact hN
    · refine holds_insert hh hp ?_ ?_ ?_
      · intro i hi
        rw [← gp.low i hi]
        show slot P w' i = slot P w i
        rw [hs2, if_neg (by omega)]
      · intro i h1 h2
        rw [List.length_map, ← gp.high i h1 h2]
        show slot P w' (i + ys.length) = slot P w (i + ys.length)
        rw [hs2, if_neg (by omega)]
      · intro j b hj
        have hjn := (List.getElem?_eq_some_iff.1 hj).1
        rw [List.length_map] at hjn
        rw [List.getElem?_map] at hj
        simp only [Option.map_eq_some_iff, Option.some.injEq, exists_eq_right] at hj
        show slot P w' (pos + j) = _
        rw [hs2, if_pos (by omega), Nat.add_sub_cancel_left]
        exact slotOf_flatten ys P.sz hy j b hj

omit hb in
theorem shrinkAt_rep {s : St} {cap pos num : Nat} {xs : List Spec.E} (hr : Rep P h0 s cap xs)
    (hp : pos + num ≤ xs.length) :
    ∃ s', shrinkAt P pos num s = .ok () s' ∧ Rep P h0 s' cap (xs.take pos ++ xs.drop (pos + num)) := by
  obtain ⟨o, t, rfl, f, hn, hh⟩ := hr
  obtain ⟨o', t', e1, f', hl, hg⟩ := shrinkAt_ok hP f xs.length pos num t hn hp
  have hlen : (xs.take pos ++ xs.drop (pos + num)).length = xs.length - num := by simp; omega
  refine ⟨_, e1, o', t', by rw [hlen], f', by rw [hlen]; omega, ?_⟩
  intro i b h
  by_cases c1 : i < pos
  · rw [List.getElem?_append_left (by simp; omega), List.getElem?_take, if_pos c1] at h
    rw [hl i c1]; exact hh i b h
  · rw [List.getElem?_append_right (by simp; omega), List.length_take, Nat.min_eq_left (by omega),
      List.getElem?_drop] at h
    have hlt := (List.getElem?_eq_some_iff.1 h).1
    rw [hg i (by omega) (by omega)]
    rw [show pos + num + (i - pos) = i + num by omega] at h
    exact hh _ b h

/-- after `reserve`: the same contents, room for `m` elements -/
theorem reserve_rep {o : Option Own} {cap : Nat} (f : Fits P h0 o cap) (n m t : Nat) (hn : n ≤ cap) :
    ∃ o1 t1, reserve P m (st P h0 o cap n t) =
      .ok (decide ((ptrOf o).addr ≠ (ptrOf o1).addr)) (st P h0 o1 (Spec.newCap cap m) n t1) ∧
      Fits P h0 o1 (Spec.newCap cap m) ∧ (∀ i, i < n → slotO P o1 i = slotO P o i) ∧ (m ≤ cap → o1 = o) := by
  by_cases hm : m ≤ cap
  · refine ⟨o, t, ?_, by rw [newCap_of_le hm]; exact f, fun _ _ => rfl, fun _ => rfl⟩
    rw [reserve_stay m _ hm, newCap_of_le hm]
    simp
  · obtain ⟨q, t1, e, g, hq, hs⟩ := reserve_grow hP hb f n m t hn (by omega)
    exact ⟨some q, t1, e, ⟨g, hq⟩, hs, fun h => absurd h hm⟩

theorem emplaceBack_st {o : Option Own} {cap : Nat} (f : Fits P h0 o cap) (n t : Nat) (hn : n ≤ cap) :
    ∃ w t1, emplaceBack P (st P h0 o cap n t) = .ok () (st P h0 (some w) (Spec.newCap cap (n + 1)) (n + 1) t1) ∧
      Good P w (Spec.newCap cap (n + 1)) ∧ h0 w.base = none ∧ (∀ i, i < n → slot P w i = slotO P o i) ∧
      (n + 1 ≤ cap → some w = o) := by
  obtain ⟨o1, t1, e1, f1, hs, ho⟩ := reserve_rep hP hb f n (n + 1) t hn
  have hN := newCap_ge cap (n + 1)
  obtain ⟨w, rfl⟩ := f1.null_cap (by omega)
  refine ⟨w, t1, ?_, f1.1, f1.2, hs, ho⟩
  have esz := size_st hP (ptrOf o) n cap (heapOf h0 o) t
  simp only [st] at e1 esz
  simp only [emplaceBack, M.bind_apply, st, esz, e1, M.modify_apply]
  simp only [Ptr.add, Nat.add_mul, Nat.one_mul, Nat.add_assoc]

theorem pushBack_rep {s : St} {cap : Nat} {xs : List Spec.E} {v : Arg (List Byte)} {a : Spec.E}
    (hr : Rep P h0 s cap xs) (hs : Spec.Safe (.pushBack v) cap xs) (ha : Spec.argVal P.sz xs v = some a) :
    ∃ s', pushBack P v s = .ok () s' ∧ Rep P h0 s' (Spec.newCap cap (xs.length + 1)) (xs ++ [a]) := by
  obtain ⟨o, t, rfl, f, hn, hh⟩ := hr
  obtain ⟨w, t1, e1, g, hw, hs1, ho⟩ := emplaceBack_st hP hb f xs.length t hn
  have hN := newCap_ge cap (xs.length + 1)
  have hk : Kept P o w (Spec.newCap cap (xs.length + 1)) v := by
    cases v with
    | val _ => trivial
    | self i =>
      have hi := argVal_self_lt ha
      have ho := ho hs
      exact ⟨by omega, by rw [ho], hs1 i hi⟩
  obtain ⟨c, hc, hc'⟩ := reads_of ha hh hk
  obtain ⟨w', e2, hb2, ho2, g2, hs2⟩ := writeSlot (h0 := h0) g
    (st P h0 (some w) (Spec.newCap cap (xs.length + 1)) (xs.length + 1) t1).v t1 xs.length c hc.length (by omega)
  refine ⟨st P h0 (some w') (Spec.newCap cap (xs.length + 1)) (xs.length + 1) t1, ?_, some w', t1, by simp,
    ⟨g2, by rw [hb2]; exact hw⟩, by simpa using hN, ?_⟩
  · have e3 := loadRef_ok g hc (st P h0 (some w) (Spec.newCap cap (xs.length + 1)) (xs.length + 1) t1).v
      (heapOf h0 (some w)) t1 (by simp [heapOf])
    simp only [pushBack, M.bind_apply, bindRef_ok, e1, backPtr_ok]
    simp only [st, ptrOf_some, Ptr.add] at e2 e3 ⊢
    simp only [e3, e2, hb2, ho2]
  · intro i b h
    by_cases c1 : i < xs.length
    · rw [List.getElem?_append_left c1] at h
      show slot P w' i = _
      rw [hs2, if_neg (by omega), hs1 i c1]
      exact hh i b h
    · have h1 := (List.getElem?_eq_some_iff.1 h).1
      simp only [List.length_append, List.length_cons, List.length_nil] at h1
      obtain rfl : i = xs.length := by omega
      simp only [List.getElem?_concat_length, Option.some.injEq] at h
      show slot P w' xs.length = _
      rw [hs2, if_pos rfl]
      exact hc' b h

theorem assignN_rep {s : St} {cap n : Nat} {xs : List Spec.E} {v : Arg (List Byte)} {a : Spec.E}
    (hr : Rep P h0 s cap xs) (hs : Spec.Safe (.assignN n v) cap xs) (ha : Spec.argVal P.sz xs v = some a) :
    ∃ s', assignN P n v s = .ok () s' ∧ Rep P h0 s' (Spec.newCap cap n) (List.replicate n a) := by
  obtain ⟨o, t, rfl, f, hn, hh⟩ := hr
  obtain ⟨o', t', n', e1, f', ho⟩ := safeGrow_ok hP hb f xs.length n t
  have hN := newCap_ge cap n
  by_cases hn0 : n = 0
  · subst hn0
    refine ⟨st P h0 o' (Spec.newCap cap 0) 0 t', ?_, o', t', by simp, f', by simp, ?_⟩
    · simp only [assignN, M.bind_apply, bindRef_ok, e1, M.get_apply, fill, M.pure_apply, setSize, M.modify_apply]
      rfl
    · intro i b h; simp at h
  · obtain ⟨w, rfl⟩ := f'.null_cap (by omega)
    obtain ⟨g, hw⟩ := f'
    have hk : Kept P o w (Spec.newCap cap n) v := by
      cases v with
      | val _ => trivial
      | self i =>
        have hi := argVal_self_lt ha
        have hs : n ≤ cap := hs
        rw [← ho hs]
        rw [newCap_of_le hs]
        exact ⟨by omega, rfl, rfl⟩
    obtain ⟨c, hc, hc'⟩ := reads_of ha hh hk
    obtain ⟨w', e2, hb2, ho2, g2, hs2⟩ := fill_ok (h0 := h0) g hc
      (st P h0 (some w) (Spec.newCap cap n) n' t').v t' 0 n (by omega)
    refine ⟨st P h0 (some w') (Spec.newCap cap n) n t', ?_, some w', t', by simp,
      ⟨g2, by rw [hb2]; exact hw⟩, by simpa using hN, ?_⟩
    · simp only [assignN, M.bind_apply, bindRef_ok, e1, M.get_apply]
      simp only [st, ptrOf_some, Ptr.add, Nat.zero_mul, Nat.add_zero] at e2 ⊢
      simp only [e2, setSize, M.modify_apply, Ptr.add, hb2, ho2]
    · intro i b h
      have h1 := (List.getElem?_eq_some_iff.1 h).1
      rw [List.length_replicate] at h1
      rw [List.getElem?_replicate, if_pos h1] at h
      simp only [Option.some.injEq] at h
      show slot P w' i = _
      rw [hs2, if_pos (by omega)]
      exact hc' b h

/-- `assign_copy` of `n` elements with the bytes `l` -/
theorem assignCopy_rep {s : St} {cap n : Nat} {xs ys : List Spec.E} {l : List Cell}
    (hr : Rep P h0 s cap xs) (hl : l.length = n * P.sz) (hn : ys.length = n)
    (hy : ∀ j b, ys[j]? = some (some b) → slotOf P.sz l j = b.map some) :
    ∃ s', assignCopy P n l s = .ok () s' ∧ Rep P h0 s' (Spec.newCap cap n) ys := by
  subst hn
  obtain ⟨o, t, rfl, f, hn, hh⟩ := hr
  obtain ⟨o', t', n', e1, f', ho⟩ := safeGrow_ok hP hb f xs.length ys.length t
  have hN := newCap_ge cap ys.length
  by_cases hn0 : ys = []
  · subst hn0
    have hl0 : l = [] := by simpa using hl
    subst hl0
    refine ⟨st P h0 o' (Spec.newCap cap 0) 0 t', ?_, o', t', by simp, f', by simp, ?_⟩
    · simp only [assignCopy, M.bind_apply, e1, M.get_apply, copyIn, if_true, M.pure_apply, setSize, M.modify_apply]
      rfl
    · intro i b h; simp at h
  · have hpos : 0 < ys.length := List.length_pos_iff.2 hn0
    obtain ⟨w, rfl⟩ := f'.null_cap (by omega)
    obtain ⟨g, hw⟩ := f'
    obtain ⟨w', e2, hb2, ho2, g2, hs2⟩ := copyIn_ok (h0 := h0) g
      (st P h0 (some w) (Spec.newCap cap ys.length) n' t').v t' 0 ys.length l hl (by omega)
    refine ⟨st P h0 (some w') (Spec.newCap cap ys.length) ys.length t', ?_, some w', t', rfl,
      ⟨g2, by rw [hb2]; exact hw⟩, hN, ?_⟩
    · simp only [assignCopy, M.bind_apply, e1, M.get_apply]
      simp only [st, ptrOf_some, Ptr.add, Nat.zero_mul, Nat.add_zero] at e2 ⊢
      simp only [e2, setSize, M.modify_apply, Ptr.add, hb2, ho2]
    · intro i b h
      have h1 := (List.getElem?_eq_some_iff.1 h).1
      show slot P w' i = _
      rw [hs2, if_pos (by omega), Nat.sub_zero]
      exact hy i b h

theorem resize_rep {s : St} {cap m : Nat} {xs : List Spec.E} (hr : Rep P h0 s cap xs) :
    ∃ r s', resize P m s = .ok r s' ∧ Rep P h0 s' (Spec.newCap cap m) (xs.take m ++ List.replicate (m - xs.length)
      (if P.A.zeroFill then some (List.replicate P.sz 0) else none)) := by
  obtain ⟨o, t, rfl, f, hn, hh⟩ := hr
  obtain ⟨o', t', e1, f', hs, hz, _⟩ := resize_ok hP hb f xs.length m t hn
  have hN := newCap_ge cap m
  have hlen : (xs.take m ++ List.replicate (m - xs.length)
      (if P.A.zeroFill then some (List.replicate P.sz 0) else none : Spec.E)).length = m := by simp; omega
  refine ⟨_, _, e1, o', t', by rw [hlen], f', by rw [hlen]; exact hN, ?_⟩
  intro i b h
  by_cases c1 : i < xs.length
  · by_cases c2 : i < m
    · rw [List.getElem?_append_left (by simp; omega), List.getElem?_take, if_pos c2] at h
      rw [hs i c1]; exact hh i b h
    · have h1 := (List.getElem?_eq_some_iff.1 h).1
      omega
  · have h1 := (List.getElem?_eq_some_iff.1 h).1
    rw [List.getElem?_append_right (by simp; omega), List.getElem?_replicate] at h
    rw [if_pos (by simp; omega)] at h
    by_cases hzf : P.A.zeroFill = true
    · simp only [hzf, if_true, Option.some.injEq] at h
      subst h
      rw [hz hzf i (by omega) (by omega)]
      simp
    · simp [hzf] at h

theorem resizeV_rep {s : St} {cap n : Nat} {xs : List Spec.E} {v : Arg (List Byte)} {a : Spec.E}
    (hr : Rep P h0 s cap xs) (hs : Spec.Safe (.resizeV n v) cap xs) (ha : Spec.argVal P.sz xs v = some a) :
    ∃ r s', resizeV P n v s = .ok r s' ∧ Rep P h0 s' (Spec.newCap cap n)
      (xs.take n ++ List.replicate (n - xs.length) a) := by
  obtain ⟨o, t, rfl, f, hn, hh⟩ := hr
  obtain ⟨o', t', e1, f', hs1, ho⟩ := reserve_rep hP hb f xs.length n t hn
  have hN := newCap_ge cap n
  have hlen : (xs.take n ++ List.replicate (n - xs.length) a).length = n := by simp; omega
  by_cases hn0 : n = 0
  · subst hn0
    refine ⟨decide ((ptrOf o).addr ≠ (ptrOf o').addr), st P h0 o' (Spec.newCap cap 0) 0 t', ?_, o', t', by simp, f',
      by simp, ?_⟩
    · simp only [resizeV, M.bind_apply, bindRef_ok, e1, M.get_apply, fill, M.pure_apply, setSize, M.modify_apply]
      rfl
    · intro i b h; simp at h
  · obtain ⟨w, rfl⟩ := f'.null_cap (by omega)
    obtain ⟨g, hw⟩ := f'
    have hroom : xs.length + n ≤ Spec.newCap cap n := by
      cases v with
      | val _ => rcases hs with h | h
                 · exact absurd h hn0
                 · exact h
      | self i => rcases hs with h | h
                  · exact absurd h hn0
                  · rw [newCap_of_le h.1]; exact h.2
    have hk : Kept P o w (Spec.newCap cap n) v := by
      cases v with
      | val _ => trivial
      | self i =>
        have hi := argVal_self_lt ha
        rcases hs with h | h
        · exact absurd h hn0
        · rw [← ho h.1, newCap_of_le h.1]
          exact ⟨by omega, rfl, rfl⟩
    obtain ⟨c, hc, hc'⟩ := reads_of ha hh hk
    obtain ⟨w', e2, hb2, ho2, g2, hs2⟩ := fill_ok (h0 := h0) g hc
      (st P h0 (some w) (Spec.newCap cap n) xs.length t').v t' xs.length n hroom
    refine ⟨decide ((ptrOf o).addr ≠ (ptrOf (some w)).addr), st P h0 (some w') (Spec.newCap cap n) n t', ?_, some w', t',
      by rw [hlen], ⟨g2, by rw [hb2]; exact hw⟩, by rw [hlen]; exact hN, ?_⟩
    · simp only [resizeV, M.bind_apply, bindRef_ok, e1, M.get_apply]
      simp only [st, ptrOf_some, Ptr.add] at e2 ⊢
      simp only [e2, setSize, M.modify_apply, M.pure_apply, Ptr.add, hb2, ho2]
    · intro i b h
      have h1 := (List.getElem?_eq_some_iff.1 h).1
      rw [hlen] at h1
      show slot P w' i = _
      by_cases c1 : i < xs.length
      · rw [List.getElem?_append_left (by simp; omega), List.getElem?_take, if_pos h1] at h
        rw [hs2, if_neg (by omega)]
        have := hs1 i c1
        simp only [slotO] at this
        rw [this]
        exact hh i b h
      · rw [List.getElem?_append_right (by simp; omega), List.getElem?_replicate, if_pos (by simp; omega)] at h
        simp only [Option.some.injEq] at h
        rw [hs2, if_pos (by omega)]
        exact hc' b h

end

theorem mapM_id_map_some (b : List Byte) : (b.map some).mapM id = some b := by
  induction b with
  | nil => rfl
  | cons x b ih => simp [List.mapM_cons, ih]

/-- Refinement for one call: whenever the specification allows the call and it is not one of the excluded ones, the code
runs without undefined behaviour, gives the specified reply and the specified contents and capacity; the rest of the heap
stays what it was. -/
theorem call_refines (hP : Wf P) {h0 : Heap} (hb : Bdd h0) {s : St} {cap : Nat} {xs : List Spec.E}
    (hr : Rep P h0 s cap xs) {op : Spec.Op} (hs : Spec.Safe op cap xs) {r : Spec.Reply} {cap' : Nat}
    {xs' : List Spec.E} (h : Spec.step P.sz P.A.zeroFill op cap xs = some (r, cap', xs')) :
    ∃ s', call P op s = some (r, s') ∧ Rep P h0 s' cap' xs' := by
  cases op with
  | reserve n =>
    simp only [Spec.step, Option.some.injEq, Prod.mk.injEq] at h
    obtain ⟨rfl, rfl, rfl⟩ := h
    obtain ⟨o, t, rfl, f, hn, hh⟩ := hr
    obtain ⟨o1, t1, e1, f1, hs1, _⟩ := reserve_rep hP hb f xs.length n t hn
    refine ⟨st P h0 o1 (Spec.newCap cap n) xs.length t1, ?_, o1, t1, rfl, f1, ?_, hh.congr hs1⟩
    · simp only [call, exec, M.bind_apply, e1, M.pure_apply]
    · by_cases hc : n ≤ cap
      · rw [newCap_of_le hc]; exact hn
      · have := newCap_ge cap n; omega
  | shrinkToFit =>
    simp only [Spec.step, Option.some.injEq, Prod.mk.injEq] at h
    obtain ⟨rfl, rfl, rfl⟩ := h
    obtain ⟨o, t, rfl, f, hn, hh⟩ := hr
    obtain ⟨o1, t1, e1, f1, hs1⟩ := shrink_ok hP hb f xs.length t hn
    refine ⟨st P h0 o1 xs.length xs.length t1, ?_, o1, t1, rfl, f1, Nat.le_refl _, hh.congr hs1⟩
    simp only [call, exec, M.bind_apply, e1, M.pure_apply]
  | clear =>
    simp only [Spec.step, Option.some.injEq, Prod.mk.injEq] at h
    obtain ⟨rfl, rfl, rfl⟩ := h
    obtain ⟨o, t, rfl, f, hn, hh⟩ := hr
    exact ⟨st P h0 o cap 0 t, rfl, o, t, rfl, f, by simp, holds_nil o⟩
  | insert pos v =>
    simp only [Spec.step, Option.bind_eq_bind, Option.bind_eq_some_iff] at h
    obtain ⟨a, ha, h⟩ := h
    by_cases hp : pos ≤ xs.length
    · rw [if_pos hp] at h
      simp only [Option.some.injEq, Prod.mk.injEq] at h
      obtain ⟨rfl, rfl, rfl⟩ := h
      obtain ⟨s', e, hr'⟩ := insert_rep hP hb hr hs ha hp
      exact ⟨s', by simp only [call, exec, M.bind_apply, e, M.pure_apply], hr'⟩
    · rw [if_neg hp] at h; cases h
  | insertN pos n v =>
    simp only [Spec.step, Option.bind_eq_bind, Option.bind_eq_some_iff] at h
    obtain ⟨a, ha, h⟩ := h
    by_cases hp : pos ≤ xs.length
    · rw [if_pos hp] at h
      simp only [Option.some.injEq, Prod.mk.injEq] at h
      obtain ⟨rfl, rfl, rfl⟩ := h
      obtain ⟨s', e, hr'⟩ := insertN_rep hP hb hr hs ha hp
      exact ⟨s', by simp only [call, exec, M.bind_apply, e, M.pure_apply], hr'⟩
    · rw [if_neg hp] at h; cases h
  | insertRange pos ys =>
    simp only [Spec.step] at h
    by_cases hp : pos ≤ xs.length ∧ ∀ y ∈ ys, y.length = P.sz
    · rw [if_pos hp] at h
      simp only [Option.some.injEq, Prod.mk.injEq] at h
      obtain ⟨rfl, rfl, rfl⟩ := h
      obtain ⟨s', e, hr'⟩ := insertRange_rep hP hb hr hp.2 hp.1
      exact ⟨s', by simp only [call, exec, M.bind_apply, e, M.pure_apply], hr'⟩
    · rw [if_neg hp] at h; cases h
  | erase pos =>
    simp only [Spec.step] at h
    by_cases hp : pos < xs.length
    · rw [if_pos hp] at h
      simp only [Option.some.injEq, Prod.mk.injEq] at h
      obtain ⟨rfl, rfl, rfl⟩ := h
      obtain ⟨s', e, hr'⟩ := shrinkAt_rep hP (num := 1) hr hp
      exact ⟨s', by simp only [call, exec, M.bind_apply, e, M.pure_apply], hr'⟩
    · rw [if_neg hp] at h; cases h
  | eraseRange f l =>
    simp only [Spec.step] at h
    by_cases hp : f ≤ l ∧ l ≤ xs.length
    · rw [if_pos hp] at h
      simp only [Option.some.injEq, Prod.mk.injEq] at h
      obtain ⟨rfl, rfl, rfl⟩ := h
      obtain ⟨s', e, hr'⟩ := shrinkAt_rep hP (pos := f) (num := l - f) hr (by omega)
      rw [show f + (l - f) = l by omega] at hr'
      exact ⟨s', by simp only [call, exec, M.bind_apply, e, M.pure_apply], hr'⟩
    · rw [if_neg hp] at h; cases h
  | emplaceBack =>
    simp only [Spec.step, Option.some.injEq, Prod.mk.injEq] at h
    obtain ⟨rfl, rfl, rfl⟩ := h
    obtain ⟨o, t, rfl, f, hn, hh⟩ := hr
    obtain ⟨w, t1, e1, g, hw, hs1, ho⟩ := emplaceBack_st hP hb f xs.length t hn
    refine ⟨_, by simp only [call, exec, M.bind_apply, e1, M.pure_apply]; rfl, some w, t1, by simp, ⟨g, hw⟩,
      by simpa using newCap_ge cap (xs.length + 1), ?_⟩
    intro i b h
    by_cases c1 : i < xs.length
    · rw [List.getElem?_append_left c1] at h
      show slot P w i = _
      rw [hs1 i c1]
      exact hh i b h
    · rw [List.getElem?_append_right (by omega)] at h
      have h1 := (List.getElem?_eq_some_iff.1 h).1
      simp only [List.length_cons, List.length_nil] at h1
      rw [show i - xs.length = 0 by omega] at h
      simp at h
  | pushBack v =>
    simp only [Spec.step, Option.bind_eq_bind, Option.bind_eq_some_iff] at h
    obtain ⟨a, ha, h⟩ := h
    simp only [Option.some.injEq, Prod.mk.injEq] at h
    obtain ⟨rfl, rfl, rfl⟩ := h
    obtain ⟨s', e, hr'⟩ := pushBack_rep hP hb hr hs ha
    exact ⟨s', by simp only [call, exec, M.bind_apply, e, M.pure_apply], hr'⟩
  | popBack =>
    simp only [Spec.step] at h
    by_cases hp : xs = []
    · rw [if_pos hp] at h; cases h
    · rw [if_neg hp] at h
      simp only [Option.some.injEq, Prod.mk.injEq] at h
      obtain ⟨rfl, rfl, rfl⟩ := h
      have hpos : 0 < xs.length := List.length_pos_iff.2 hp
      obtain ⟨s', e, hr'⟩ := shrinkAt_rep hP (pos := xs.length - 1) (num := 1) hr (by omega)
      rw [show xs.length - 1 + 1 = xs.length by omega, List.drop_length, List.append_nil, ← List.dropLast_eq_take] at hr'
      refine ⟨s', ?_, hr'⟩
      obtain ⟨o, t, rfl, f, hn, hh⟩ := hr
      have esz := size_st hP (ptrOf o) xs.length cap (heapOf h0 o) t
      have h0' : xs.length ≠ 0 := by omega
      simp only [st] at e esz
      simp only [call, exec, popBack, M.bind_apply, st, esz, h0', if_false, e, M.pure_apply]
  | resize n =>
    simp only [Spec.step, Option.some.injEq, Prod.mk.injEq] at h
    obtain ⟨rfl, rfl, rfl⟩ := h
    obtain ⟨r, s', e, hr'⟩ := resize_rep hP hb (m := n) hr
    exact ⟨s', by simp only [call, exec, M.bind_apply, e, M.pure_apply], hr'⟩
  | resizeV n v =>
    simp only [Spec.step, Option.bind_eq_bind, Option.bind_eq_some_iff] at h
    obtain ⟨a, ha, h⟩ := h
    simp only [Option.some.injEq, Prod.mk.injEq] at h
    obtain ⟨rfl, rfl, rfl⟩ := h
    obtain ⟨r, s', e, hr'⟩ := resizeV_rep hP hb hr hs ha
    exact ⟨s', by simp only [call, exec, M.bind_apply, e, M.pure_apply], hr'⟩
  | assignN n v =>
    simp only [Spec.step, Option.bind_eq_bind, Option.bind_eq_some_iff] at h
    obtain ⟨a, ha, h⟩ := h
    simp only [Option.some.injEq, Prod.mk.injEq] at h
    obtain ⟨rfl, rfl, rfl⟩ := h
    obtain ⟨s', e, hr'⟩ := assignN_rep hP hb hr hs ha
    exact ⟨s', by simp only [call, exec, M.bind_apply, e, M.pure_apply], hr'⟩
  | assignRange ys =>
    simp only [Spec.step] at h
    by_cases hp : ∀ y ∈ ys, y.length = P.sz
    · rw [if_pos hp] at h
      simp only [Option.some.injEq, Prod.mk.injEq] at h
      obtain ⟨rfl, rfl, rfl⟩ := h
      obtain ⟨s', e, hr'⟩ := assignCopy_rep hP hb (ys := ys.map some) hr (length_flatten_of ys P.sz hp) (by simp) (by
        intro j b hj
        rw [List.getElem?_map] at hj
        simp only [Option.map_eq_some_iff, Option.some.injEq, exists_eq_right] at hj
        exact slotOf_flatten ys P.sz hp j b hj)
      exact ⟨s', by simp only [call, exec, M.bind_apply, e, M.pure_apply], hr'⟩
    · rw [if_neg hp] at h; cases h
  | set i x =>
    simp only [Spec.step] at h
    by_cases hp : i < xs.length ∧ x.length = P.sz
    · rw [if_pos hp] at h
      simp only [Option.some.injEq, Prod.mk.injEq] at h
      obtain ⟨rfl, rfl, rfl⟩ := h
      obtain ⟨o, t, rfl, f, hn, hh⟩ := hr
      obtain ⟨w, rfl⟩ := f.null_cap (by omega)
      obtain ⟨g, hw⟩ := f
      obtain ⟨w', e2, hb2, ho2, g2, hs2⟩ := writeSlot (h0 := h0) g (st P h0 (some w) cap xs.length t).v t i (x.map some)
        (by simpa using hp.2) (by omega)
      refine ⟨st P h0 (some w') cap xs.length t, ?_, some w', t, by simp, ⟨g2, by rw [hb2]; exact hw⟩, by simpa using hn, ?_⟩
      · simp only [st, ptrOf_some, Ptr.add] at e2
        simp only [call, exec, setAt, M.bind_apply, M.get_apply, st, ptrOf_some, Ptr.add, e2, M.pure_apply, hb2, ho2]
      · intro j b hj
        show slot P w' j = _
        rw [List.getElem?_set] at hj
        by_cases c : i = j
        · subst c
          rw [if_pos rfl, if_pos hp.1] at hj
          simp only [Option.some.injEq] at hj
          subst hj
          rw [hs2, if_pos rfl]
        · rw [if_neg c] at hj
          rw [hs2, if_neg (fun e => c e.symm)]
          exact hh j b hj
    · rw [if_neg hp] at h; cases h
  | get i =>
    simp only [Spec.step, Option.bind_eq_bind, Option.bind_eq_some_iff] at h
    obtain ⟨x, hx, b, hb', h⟩ := h
    simp only [Option.some.injEq, Prod.mk.injEq] at h
    obtain ⟨rfl, rfl, rfl⟩ := h
    subst hb'
    have hlt := (List.getElem?_eq_some_iff.1 hx).1
    obtain ⟨o, t, rfl, f, hn, hh⟩ := hr
    obtain ⟨w, rfl⟩ := f.null_cap (by omega)
    have hv := hh i b hx
    have e := readSlots w f.1 (st P h0 (some w) cap xs.length t).v (heapOf h0 (some w)) t i 1 (by simp [heapOf]) (by omega)
    rw [Nat.one_mul, show w.blk.sl (w.off + i * P.sz) P.sz = b.map some from hv] at e
    refine ⟨_, ?_, some w, t, rfl, f, hn, hh⟩
    simp only [st, ptrOf_some, Ptr.add] at e
    simp only [call, exec, at_, M.bind_apply, M.get_apply, st, ptrOf_some, Ptr.add, e, mapM_id_map_some, M.pure_apply]
  | getBack =>
    simp only [Spec.step, Option.bind_eq_bind, Option.bind_eq_some_iff] at h
    obtain ⟨x, hx, b, hb', h⟩ := h
    simp only [Option.some.injEq, Prod.mk.injEq] at h
    obtain ⟨rfl, rfl, rfl⟩ := h
    subst hb'
    rw [List.getLast?_eq_getElem?] at hx
    have hlt := (List.getElem?_eq_some_iff.1 hx).1
    obtain ⟨n, hn1⟩ : ∃ n, xs.length = n + 1 := ⟨xs.length - 1, by omega⟩
    obtain ⟨o, t, rfl, f, hn, hh⟩ := hr
    obtain ⟨w, rfl⟩ := f.null_cap (by omega)
    have hv := hh _ b hx
    rw [hn1, Nat.add_sub_cancel] at hv
    have e := readSlots w f.1 (st P h0 (some w) cap (n + 1) t).v (heapOf h0 (some w)) t n 1 (by simp [heapOf]) (by omega)
    rw [Nat.one_mul, show w.blk.sl (w.off + n * P.sz) P.sz = b.map some from hv] at e
    refine ⟨st P h0 (some w) cap (n + 1) t, ?_, some w, t, by rw [hn1], f, hn, hh⟩
    rw [hn1]
    have e' : readAt ⟨w.base, w.off + n * P.sz⟩ P.sz (st P h0 (some w) cap (n + 1) t) =
      .ok (b.map some) (st P h0 (some w) cap (n + 1) t) := e
    simp only [call, exec, back, M.bind_apply, backPtr_ok, e', mapM_id_map_some, M.pure_apply]
  | size =>
    simp only [Spec.step, Option.some.injEq, Prod.mk.injEq] at h
    obtain ⟨rfl, rfl, rfl⟩ := h
    obtain ⟨o, t, rfl, f, hn, hh⟩ := hr
    have esz := size_st hP (ptrOf o) xs.length cap (heapOf h0 o) t
    refine ⟨st P h0 o cap xs.length t, ?_, o, t, rfl, f, hn, hh⟩
    simp only [call, exec, M.bind_apply, st, esz, M.pure_apply]
  | capacity =>
    simp only [Spec.step, Option.some.injEq, Prod.mk.injEq] at h
    obtain ⟨rfl, rfl, rfl⟩ := h
    obtain ⟨o, t, rfl, f, hn, hh⟩ := hr
    exact ⟨st P h0 o cap xs.length t, rfl, o, t, rfl, f, hn, hh⟩

end Itlib.PodVector
