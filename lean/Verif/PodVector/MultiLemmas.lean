import Verif.PodVector.StepLemmas

/-! # Several `pod_vector`s on one heap -/
namespace Itlib.PodVector
open Itlib

variable {A : Alloc}

/-- the parameters of the specification's vector `V` -/
def prm (A : Alloc) (V : Spec.V) : Params := ⟨V.sz, V.al, A⟩

/-- the members of a vector with buffer `o` -/
def vecOf (o : Option Own) (V : Spec.V) : Vec := ⟨ptrOf o, (ptrOf o).add (V.xs.length * V.sz), V.cap⟩

/-- `o` is a buffer with the contents of `V` -/
structure Sound (A : Alloc) (o : Option Own) (V : Spec.V) : Prop where
  wf : Wf (prm A V)
  good : ∀ w, o = some w → Good (prm A V) w V.cap
  cap0 : o = none → V.cap = 0
  len : V.xs.length ≤ V.cap
  holds : Holds (prm A V) o V.xs

/-- The memory `m` represents the vectors `y`, `own i` being the buffer of vector `i`: every block on the heap belongs to
exactly one vector. -/
structure MRep (A : Alloc) (m : Mem) (y : Spec.Sys) (own : Nat → Option Own) : Prop where
  dead : ∀ i, y i = none → m.vec i = none ∧ own i = none
  live : ∀ i V, y i = some V → m.vec i = some (⟨V.sz, V.al⟩, vecOf (own i) V) ∧ Sound A (own i) V
  heap : ∀ a b, m.heap a = some b ↔ ∃ i w, own i = some w ∧ w.base = a ∧ w.blk = b
  inj : ∀ i j w w', own i = some w → own j = some w' → w.base = w'.base → i = j
  bdd : Bdd m.heap

variable {m : Mem} {y : Spec.Sys} {own : Nat → Option Own}

/-- the heap without the buffer of vector `i` -/
def rest (m : Mem) (own : Nat → Option Own) (i : Nat) : Heap :=
  match own i with
  | none => m.heap
  | some w => Function.update m.heap w.base none

theorem MRep.own_heap (h : MRep A m y own) {i : Nat} {w : Own} (hw : own i = some w) : m.heap w.base = some w.blk :=
  (h.heap _ _).2 ⟨i, w, hw, rfl, rfl⟩

theorem MRep.heapOf_rest (h : MRep A m y own) (i : Nat) : heapOf (rest m own i) (own i) = m.heap := by
  unfold rest
  cases hw : own i with
  | none => rfl
  | some w =>
    simp only [heapOf, Function.update_idem]
    rw [← h.own_heap hw, Function.update_eq_self]

theorem MRep.bdd_rest (h : MRep A m y own) (i : Nat) : Bdd (rest m own i) := by
  unfold rest
  cases own i with
  | none => exact h.bdd
  | some w => exact h.bdd.update _ _

theorem MRep.rest_own (i : Nat) {w : Own} (hw : own i = some w) : rest m own i w.base = none := by
  simp [rest, hw]

theorem MRep.rest_iff (h : MRep A m y own) (i a : Nat) (b : Block) :
    rest m own i a = some b ↔ ∃ j w, j ≠ i ∧ own j = some w ∧ w.base = a ∧ w.blk = b := by
  unfold rest
  cases hw : own i with
  | none =>
    simp only
    rw [h.heap]
    constructor
    · rintro ⟨j, w, h1, h2, h3⟩
      refine ⟨j, w, ?_, h1, h2, h3⟩
      intro e; subst e; rw [hw] at h1; cases h1
    · rintro ⟨j, w, _, h1, h2, h3⟩; exact ⟨j, w, h1, h2, h3⟩
  | some w =>
    simp only
    by_cases ha : a = w.base
    · subst ha
      simp only [Function.update_self]
      constructor
      · intro h'; cases h'
      · rintro ⟨j, w', hj, h1, h2, h3⟩
        exact absurd (h.inj _ _ _ _ h1 hw h2) hj
    · rw [Function.update_of_ne ha, h.heap]
      constructor
      · rintro ⟨j, w', h1, h2, h3⟩
        refine ⟨j, w', ?_, h1, h2, h3⟩
        intro e; subst e; rw [hw] at h1; cases h1; exact ha h2.symm
      · rintro ⟨j, w', _, h1, h2, h3⟩; exact ⟨j, w', h1, h2, h3⟩

theorem Sound.fits {o : Option Own} {V : Spec.V} (h : Sound A o V) {h0 : Heap} (hf : ∀ w, o = some w → h0 w.base = none) :
    Fits (prm A V) h0 o V.cap := by
  cases o with
  | none => exact h.cap0 rfl
  | some w => exact ⟨h.good w rfl, hf w rfl⟩

/-- a live vector seen alone -/
theorem MRep.focus (h : MRep A m y own) {i : Nat} {V : Spec.V} (hy : y i = some V) :
    Rep (prm A V) (rest m own i) ⟨vecOf (own i) V, m.heap, m.tick⟩ V.cap V.xs := by
  obtain ⟨_, hs⟩ := h.live i V hy
  refine ⟨own i, m.tick, ?_, hs.fits (fun w hw => MRep.rest_own i hw), hs.len, hs.holds⟩
  simp only [st, h.heapOf_rest]
  rfl

theorem update_noop {α : Type} (f : Nat → α) (i : Nat) (a : α) (h : f i = a) : Function.update f i a = f := by
  rw [← h, Function.update_eq_self]

/-- The new memory after a change of vector `i` alone, given by the heap and the vector's new buffer. -/
theorem MRep.change (h : MRep A m y own) (i : Nat) {V : Spec.V} {o : Option Own} {t : Nat}
    (hs : Sound A o V) (hf : ∀ w, o = some w → rest m own i w.base = none) :
    MRep A ⟨Function.update m.vec i (some (⟨V.sz, V.al⟩, vecOf o V)), heapOf (rest m own i) o, t⟩ (y.put i (some V))
      (Function.update own i o) := by
  refine ⟨?_, ?_, ?_, ?_, (h.bdd_rest i).heapOf o⟩
  · intro j hj
    by_cases e : j = i
    · subst e; simp [Spec.Sys.put] at hj
    · rw [Spec.Sys.put, Function.update_of_ne e] at hj
      simp only [Function.update_of_ne e]
      exact h.dead j hj
  · intro j W hj
    by_cases e : j = i
    · subst e
      simp only [Spec.Sys.put, Function.update_self, Option.some.injEq] at hj
      subst hj
      simp only [Function.update_self]
      exact ⟨trivial, hs⟩
    · rw [Spec.Sys.put, Function.update_of_ne e] at hj
      simp only [Function.update_of_ne e]
      exact h.live j W hj
  · intro a b
    simp only
    cases o with
    | none =>
      simp only [heapOf]
      rw [h.rest_iff]
      constructor
      · rintro ⟨j, w, h1, h2, h3⟩
        exact ⟨j, w, by rw [Function.update_of_ne h1]; exact h2, h3⟩
      · rintro ⟨j, w, h2, h3⟩
        by_cases e : j = i
        · subst e; simp at h2
        · rw [Function.update_of_ne e] at h2
          exact ⟨j, w, e, h2, h3⟩
    | some q =>
      simp only [heapOf]
      by_cases ha : a = q.base
      · subst ha
        rw [Function.update_self]
        constructor
        · intro hb; cases hb; exact ⟨i, q, by simp, rfl, rfl⟩
        · rintro ⟨j, w, h2, h3, h4⟩
          by_cases e : j = i
          · subst e; simp at h2; subst h2; rw [h4]
          · rw [Function.update_of_ne e] at h2
            have h5 := (h.rest_iff i q.base w.blk).2 ⟨j, w, e, h2, h3, rfl⟩
            rw [hf q rfl] at h5; cases h5
      · rw [Function.update_of_ne ha, h.rest_iff]
        constructor
        · rintro ⟨j, w, h1, h2, h3⟩
          exact ⟨j, w, by rw [Function.update_of_ne h1]; exact h2, h3⟩
        · rintro ⟨j, w, h2, h3, h4⟩
          by_cases e : j = i
          · subst e; simp at h2; subst h2; exact absurd h3.symm ha
          · rw [Function.update_of_ne e] at h2
            exact ⟨j, w, e, h2, h3, h4⟩
  · intro j k w w' hj hk hb
    by_cases e : j = i
    · subst e
      simp only [Function.update_self] at hj
      by_cases e' : k = j
      · exact e'.symm
      · rw [Function.update_of_ne e'] at hk
        have h5 := (h.rest_iff j w.base w'.blk).2 ⟨k, w', e', hk, hb.symm, rfl⟩
        rw [hf w hj] at h5; cases h5
    · rw [Function.update_of_ne e] at hj
      by_cases e' : k = i
      · subst e'
        simp only [Function.update_self] at hk
        have h5 := (h.rest_iff k w'.base w.blk).2 ⟨j, w, e, hj, hb, rfl⟩
        rw [hf w' hk] at h5; cases h5
      · rw [Function.update_of_ne e'] at hk
        exact h.inj j k w w' hj hk hb

/-- a member function that changes vector `i` -/
theorem MRep.at_change {β : Type} (h : MRep A m y own) {i : Nat} {V : Spec.V} (hy : y i = some V) (f : Params → M St β)
    {b : β} {s' : St} {cap : Nat} {xs : List Spec.E}
    (hf : f (prm A V) ⟨vecOf (own i) V, m.heap, m.tick⟩ = .ok b s')
    (hr : Rep (prm A V) (rest m own i) s' cap xs) :
    ∃ m' own', at' A i f m = .ok b m' ∧ MRep A m' (y.put i (some { V with cap := cap, xs := xs })) own' ∧
      ∀ j, j ≠ i → own' j = own j := by
  obtain ⟨o, t, rfl, hfit, hlen, hh⟩ := hr
  obtain ⟨hv, hs⟩ := h.live i V hy
  have hs' : Sound A o { V with cap := cap, xs := xs } := by
    refine ⟨hs.wf, ?_, ?_, hlen, hh⟩
    · intro w hw; subst hw; exact hfit.1
    · intro hw; subst hw; exact hfit
  refine ⟨_, _, ?_, h.change (t := t) i hs' ?_, fun j hj => Function.update_of_ne hj _ _⟩
  · have e : f (Ty.params ⟨V.sz, V.al⟩ A) ⟨vecOf (own i) V, m.heap, m.tick⟩ = _ := hf
    simp only [at', hv, e]
    rfl
  · intro w hw; subst hw; exact hfit.2

/-- a member function that only looks at vector `i` -/
theorem MRep.at_read {β : Type} (h : MRep A m y own) {i : Nat} {V : Spec.V} (hy : y i = some V) (f : Params → M St β)
    {b : β} (hf : f (prm A V) ⟨vecOf (own i) V, m.heap, m.tick⟩ = .ok b ⟨vecOf (own i) V, m.heap, m.tick⟩) :
    at' A i f m = .ok b m := by
  obtain ⟨hv, hs⟩ := h.live i V hy
  have e : f (Ty.params ⟨V.sz, V.al⟩ A) ⟨vecOf (own i) V, m.heap, m.tick⟩ = _ := hf
  simp only [at', hv, e]
  rw [update_noop _ _ _ hv]

theorem MRep.size_read (h : MRep A m y own) {i : Nat} {V : Spec.V} (hy : y i = some V) :
    at' A i size m = .ok V.xs.length m :=
  h.at_read hy size (size_st (h.live i V hy).2.wf (ptrOf (own i)) V.xs.length V.cap m.heap m.tick)

/-- the bytes of a vector, as read -/
def bytesOf (o : Option Own) (n : Nat) : List Cell :=
  match o with
  | none => []
  | some w => if n = 0 then [] else w.blk.sl w.off n

theorem bytesOf_length {o : Option Own} {n : Nat} (h : o = none → n = 0) : (bytesOf o n).length = n := by
  cases o with
  | none => simp [bytesOf, h rfl]
  | some w => by_cases hn : n = 0 <;> simp [bytesOf, hn]

theorem MRep.bytes_read (h : MRep A m y own) {i : Nat} {V : Spec.V} (hy : y i = some V) :
    at' A i bytes m = .ok (bytesOf (own i) (V.xs.length * V.sz)) m := by
  obtain ⟨hv, hs⟩ := h.live i V hy
  refine h.at_read hy bytes ?_
  have esz := size_st hs.wf (ptrOf (own i)) V.xs.length V.cap m.heap m.tick
  have esz' : size (prm A V) ⟨vecOf (own i) V, m.heap, m.tick⟩ = .ok V.xs.length ⟨vecOf (own i) V, m.heap, m.tick⟩ := esz
  simp only [bytes, M.bind_apply, esz', M.get_apply]
  by_cases h0 : V.xs.length = 0
  · simp only [h0, if_true, M.pure_apply, Nat.zero_mul, bytesOf]
    cases own i <;> rfl
  · rw [if_neg h0]
    cases ho : own i with
    | none => have := hs.cap0 ho; have := hs.len; omega
    | some w =>
      have g := hs.good w ho
      have hsz := hs.wf.sz
      have e := readSlots w g (vecOf (some w) V) m.heap m.tick 0 V.xs.length (h.own_heap ho) (by simpa using hs.len)
      simp only [Nat.zero_mul, Nat.add_zero] at e
      have h1 : V.xs.length * V.sz ≠ 0 := Nat.mul_ne_zero h0 (by simp only [prm] at hsz; omega)
      simp only [bytesOf, h1, if_false]
      exact e

theorem slotOf_bytesOf {o : Option Own} {V : Spec.V} (hs : Sound A o V) {k : Nat} (hk : k < V.xs.length) :
    slotOf V.sz (bytesOf o (V.xs.length * V.sz)) k = slotO (prm A V) o k := by
  cases o with
  | none => have := hs.cap0 rfl; have := hs.len; omega
  | some w =>
    have hsz := hs.wf.sz
    have h1 : V.xs.length * V.sz ≠ 0 := Nat.mul_ne_zero (by omega) (by simp only [prm] at hsz; omega)
    simp only [bytesOf, h1, if_false, slotO]
    have := slotOf_read (P := prm A V) w 0 V.xs.length k hk
    simp only [Nat.zero_mul, Nat.add_zero, Nat.zero_add] at this
    exact this

/-! ### Construction, destruction, moving -/

theorem MRep.construct (h : MRep A m y own) {i : Nat} (hy : y i = none) (hA : Fair A) (ha : ∃ k, A.align = 2 ^ k)
    (hf : ∀ t n, A.fails t n = false) {sz al : Nat} (hT : 0 < sz ∧ al ≤ 128 ∧ ∃ k, al = 2 ^ k) :
    ∃ m', PodVector.construct i ⟨sz, al⟩ m = .ok () m' ∧ MRep A m' (y.put i (some ⟨sz, al, 0, []⟩)) own := by
  obtain ⟨hv, ho⟩ := h.dead i hy
  have hs : Sound A (none : Option Own) ⟨sz, al, 0, []⟩ :=
    ⟨⟨hT.1, hT.2.1, hT.2.2, ha, hA, hf⟩, fun w hw => (by cases hw), fun _ => rfl, Nat.le_refl _, holds_nil _⟩
  have hc := h.change (t := m.tick) (V := ⟨sz, al, 0, []⟩) (o := none) i hs (fun w hw => (by cases hw))
  rw [update_noop own i none ho] at hc
  refine ⟨_, ?_, hc⟩
  have e : heapOf (rest m own i) none = m.heap := by simp [heapOf, rest, ho]
  rw [e]
  simp only [PodVector.construct, M.mem, hv]
  simp [vecOf, ptrOf, Ptr.add, null]

/-- releasing the buffer of vector `i`; its members dangle, so the vector is not counted any more -/
theorem MRep.kill (h : MRep A m y own) {i : Nat} {V : Spec.V} (hy : y i = some V) :
    ∃ m', at' A i aFreeBegin m = .ok () m' ∧ m'.vec = m.vec ∧ m'.tick = m.tick ∧
      MRep A { m' with vec := Function.update m'.vec i none } (y.put i none) (Function.update own i none) := by
  obtain ⟨hv, hs⟩ := h.live i V hy
  refine ⟨⟨m.vec, rest m own i, m.tick⟩, ?_, rfl, rfl, ?_⟩
  · have e : aFreeBegin (prm A V) ⟨vecOf (own i) V, m.heap, m.tick⟩ =
        .ok () ⟨vecOf (own i) V, rest m own i, m.tick⟩ := by
      cases ho : own i with
      | none => simp only [rest, ho]; exact aFree_null _ _ _ _
      | some w =>
        simp only [rest, ho]
        exact aFree_ok (hs.good w ho) _ _ _ _ (h.own_heap ho)
    have e' : aFreeBegin (Ty.params ⟨V.sz, V.al⟩ A) ⟨vecOf (own i) V, m.heap, m.tick⟩ = _ := e
    simp only [at', hv, e']
    rw [update_noop _ _ _ hv]
  · refine ⟨?_, ?_, ?_, ?_, h.bdd_rest i⟩
    · intro j hj
      by_cases e : j = i
      · subst e; simp
      · rw [Spec.Sys.put, Function.update_of_ne e] at hj
        simp only [Function.update_of_ne e]
        exact h.dead j hj
    · intro j W hj
      by_cases e : j = i
      · subst e; simp [Spec.Sys.put] at hj
      · rw [Spec.Sys.put, Function.update_of_ne e] at hj
        simp only [Function.update_of_ne e]
        exact h.live j W hj
    · intro a b
      simp only
      rw [h.rest_iff]
      constructor
      · rintro ⟨j, w, h1, h2, h3⟩
        exact ⟨j, w, by rw [Function.update_of_ne h1]; exact h2, h3⟩
      · rintro ⟨j, w, h2, h3⟩
        by_cases e : j = i
        · subst e; simp at h2
        · rw [Function.update_of_ne e] at h2
          exact ⟨j, w, e, h2, h3⟩
    · intro j k w w' hj hk hb
      by_cases e : j = i
      · subst e; simp at hj
      · by_cases e' : k = i
        · subst e'; simp at hk
        · rw [Function.update_of_ne e] at hj
          rw [Function.update_of_ne e'] at hk
          exact h.inj j k w w' hj hk hb

/-- the buffer of `j` goes to `i`, possibly as elements of another type -/
theorem MRep.transfer (h : MRep A m y own) {i j : Nat} (hi : y i = none) {W V : Spec.V} (hj : y j = some W)
    (hs : Sound A (own j) V) :
    MRep A ⟨Function.update (Function.update m.vec i (some (⟨V.sz, V.al⟩, vecOf (own j) V))) j
        (some (⟨W.sz, W.al⟩, ⟨null, null, 0⟩)), m.heap, m.tick⟩
      ((y.put i (some V)).put j (some { W with cap := 0, xs := [] }))
      (Function.update (Function.update own i (own j)) j none) := by
  have hij : i ≠ j := by intro e; subst e; rw [hi] at hj; cases hj
  obtain ⟨hv, ho⟩ := h.dead i hi
  obtain ⟨hvj, hsj⟩ := h.live j W hj
  have hown : ∀ k w, Function.update (Function.update own i (own j)) j none k = some w ↔
      k ≠ j ∧ ((k = i ∧ own j = some w) ∨ (k ≠ i ∧ own k = some w)) := by
    intro k w
    by_cases e : k = j
    · subst e; simp
    · rw [Function.update_of_ne e]
      by_cases e' : k = i
      · subst e'; simp [e]
      · rw [Function.update_of_ne e']; simp [e, e']
  refine ⟨?_, ?_, ?_, ?_, h.bdd⟩
  · intro k hk
    by_cases e : k = j
    · subst e; simp [Spec.Sys.put] at hk
    · simp only [Spec.Sys.put, Function.update_of_ne e] at hk
      by_cases e' : k = i
      · subst e'; simp at hk
      · simp only [Function.update_of_ne e'] at hk
        simp only [Function.update_of_ne e, Function.update_of_ne e']
        exact h.dead k hk
  · intro k U hk
    by_cases e : k = j
    · subst e
      simp only [Spec.Sys.put, Function.update_self, Option.some.injEq] at hk
      subst hk
      simp only [Function.update_self]
      refine ⟨by simp [vecOf, ptrOf, Ptr.add, null], ⟨hsj.wf, fun w hw => (by cases hw), fun _ => rfl, Nat.le_refl _,
        holds_nil _⟩⟩
    · simp only [Spec.Sys.put, Function.update_of_ne e] at hk
      by_cases e' : k = i
      · subst e'
        simp only [Function.update_self, Option.some.injEq] at hk
        subst hk
        simp only [Function.update_of_ne e, Function.update_self]
        exact ⟨trivial, hs⟩
      · simp only [Function.update_of_ne e'] at hk
        simp only [Function.update_of_ne e, Function.update_of_ne e']
        exact h.live k U hk
  · intro a b
    simp only
    rw [h.heap]
    constructor
    · rintro ⟨k, w, h1, h2⟩
      by_cases e : k = j
      · subst e; exact ⟨i, w, (hown i w).2 ⟨hij, .inl ⟨rfl, h1⟩⟩, h2⟩
      · refine ⟨k, w, (hown k w).2 ⟨e, .inr ⟨?_, h1⟩⟩, h2⟩
        intro e'; subst e'; rw [ho] at h1; cases h1
    · rintro ⟨k, w, h1, h2⟩
      rcases (hown k w).1 h1 with ⟨_, ⟨_, h3⟩ | ⟨_, h3⟩⟩
      · exact ⟨j, w, h3, h2⟩
      · exact ⟨k, w, h3, h2⟩
  · intro k l w w' hk hl hb
    rcases (hown k w).1 hk with ⟨ek, ⟨e1, h1⟩ | ⟨e1, h1⟩⟩
    · rcases (hown l w').1 hl with ⟨el, ⟨e2, h2⟩ | ⟨e2, h2⟩⟩
      · rw [e1, e2]
      · exact absurd (h.inj _ _ _ _ h1 h2 hb).symm el
    · rcases (hown l w').1 hl with ⟨el, ⟨e2, h2⟩ | ⟨e2, h2⟩⟩
      · exact absurd (h.inj _ _ _ _ h1 h2 hb) ek
      · exact h.inj _ _ _ _ h1 h2 hb

/-! ### Seeing bytes as elements of another size -/

/-- the known bytes of `L` are in `l` -/
def Below (L l : List Cell) : Prop := L.length = l.length ∧ ∀ (i : Nat) (c : Byte), L[i]? = some (some c) → l[i]? = some (some c)

theorem mapM_id_eq_some {l : List Cell} {b : List Byte} (h : l.mapM id = some b) : l = b.map some := by
  induction l generalizing b with
  | nil => simp at h; subst h; rfl
  | cons x l ih =>
    simp only [List.mapM_cons, id, Option.bind_eq_bind, Option.bind_eq_some_iff, pure, Option.some.injEq] at h
    obtain ⟨a, rfl, c, hc, rfl⟩ := h
    rw [ih hc]; rfl

theorem Below.chunk {L l : List Cell} (h : Below L l) {sz k : Nat} {b : List Byte}
    (hc : (Spec.chunks sz L)[k]? = some (some b)) : slotOf sz l k = b.map some := by
  simp only [Spec.chunks, List.getElem?_map, Option.map_eq_some_iff] at hc
  obtain ⟨k', hk, hc⟩ := hc
  have hlt := (List.getElem?_eq_some_iff.1 hk).1
  rw [List.getElem?_range (by simpa using hlt)] at hk
  cases hk
  have hc := mapM_id_eq_some hc
  rw [← hc]
  apply List.ext_getElem?
  intro j
  simp only [slotOf, List.getElem?_take, List.getElem?_drop]
  by_cases hj : j < sz
  · rw [if_pos hj, if_pos hj]
    have h1 : ((L.drop (k * sz)).take sz)[j]? = (b.map some)[j]? := by rw [hc]
    rw [List.getElem?_take, if_pos hj, List.getElem?_drop, List.getElem?_map] at h1
    cases hb : b[j]? with
    | none =>
      rw [hb] at h1
      simp only [Option.map_none] at h1
      rw [h1]
      rw [List.getElem?_eq_none_iff] at h1 ⊢
      rw [← h.1]; exact h1
    | some c =>
      rw [hb] at h1
      simp only [Option.map_some] at h1
      rw [h1, h.2 _ _ h1]
  · rw [if_neg hj, if_neg hj]

theorem E.bytes_length {sz : Nat} {x : Spec.E} (h : ∀ b, x = some b → b.length = sz) : (Spec.E.bytes sz x).length = sz := by
  cases x with
  | none => simp [Spec.E.bytes]
  | some b => simp [Spec.E.bytes, h b rfl]

theorem flat_length {sz : Nat} {xs : List Spec.E} (h : ∀ x ∈ xs, ∀ b, x = some b → b.length = sz) :
    (xs.flatMap (Spec.E.bytes sz)).length = xs.length * sz := by
  induction xs with
  | nil => simp
  | cons x xs ih =>
    simp only [List.flatMap_cons, List.length_append, List.length_cons]
    rw [ih (fun z hz => h z (by simp [hz])), E.bytes_length (h x (by simp)), Nat.add_mul]
    omega

theorem flat_getElem? {sz : Nat} {xs : List Spec.E} (h : ∀ x ∈ xs, ∀ b, x = some b → b.length = sz) (k j : Nat)
    (hj : j < sz) (x : Spec.E) (hk : xs[k]? = some x) :
    (xs.flatMap (Spec.E.bytes sz))[k * sz + j]? = (Spec.E.bytes sz x)[j]? := by
  induction xs generalizing k with
  | nil => simp at hk
  | cons z xs ih =>
    have hz := E.bytes_length (h z (by simp))
    simp only [List.flatMap_cons]
    cases k with
    | zero =>
      simp only [List.getElem?_cons_zero, Option.some.injEq] at hk
      subst hk
      rw [Nat.zero_mul, Nat.zero_add, List.getElem?_append_left (by omega)]
    | succ k =>
      simp only [List.getElem?_cons_succ] at hk
      rw [List.getElem?_append_right (by rw [hz, Nat.add_mul]; omega), hz]
      rw [← ih (fun z hz => h z (by simp [hz])) k hk]
      congr 1
      rw [Nat.add_mul]; omega

theorem Sound.lengths {o : Option Own} {V : Spec.V} (hs : Sound A o V) :
    ∀ x ∈ V.xs, ∀ b, x = some b → b.length = V.sz := by
  intro x hx b hb
  subst hb
  obtain ⟨i, hi⟩ := List.getElem?_of_mem hx
  have h1 := hs.holds i b hi
  have hlt := (List.getElem?_eq_some_iff.1 hi).1
  cases o with
  | none => have := hs.cap0 rfl; have := hs.len; omega
  | some w =>
    have h2 := congrArg List.length h1
    simp only [slotO, slot_length, List.length_map] at h2
    exact h2.symm

theorem Sound.below {o : Option Own} {V : Spec.V} (hs : Sound A o V) :
    Below (V.xs.flatMap (Spec.E.bytes V.sz)) (bytesOf o (V.xs.length * V.sz)) := by
  have hsz : 0 < V.sz := hs.wf.sz
  have hl := hs.lengths
  have hlen : o = none → V.xs.length * V.sz = 0 := by
    intro e
    have := hs.cap0 e
    have := hs.len
    have h0 : V.xs.length = 0 := by omega
    rw [h0]; simp
  refine ⟨?_, ?_⟩
  · rw [flat_length hl, bytesOf_length hlen]
  · intro i c hc
    have hi := (List.getElem?_eq_some_iff.1 hc).1
    rw [flat_length hl] at hi
    have hk : i / V.sz < V.xs.length := by
      rw [Nat.div_lt_iff_lt_mul hsz]; exact hi
    have hj : i % V.sz < V.sz := Nat.mod_lt _ hsz
    have hij : i / V.sz * V.sz + i % V.sz = i := by
      have := Nat.div_add_mod i V.sz
      rw [Nat.mul_comm] at this; exact this
    have hx : V.xs[i / V.sz]? = some V.xs[i / V.sz] := List.getElem?_eq_getElem hk
    have e := flat_getElem? hl (i / V.sz) (i % V.sz) hj _ hx
    rw [hij, hc] at e
    cases hv : V.xs[i / V.sz] with
    | none =>
      rw [hv] at e
      simp only [Spec.E.bytes, List.getElem?_replicate, hj, if_true] at e
      cases e
    | some b =>
      rw [hv] at e hx
      have h1 := hs.holds _ b hx
      rw [← slotOf_bytesOf hs hk] at h1
      simp only [Spec.E.bytes] at e
      rw [← h1] at e
      simp only [slotOf, List.getElem?_take, List.getElem?_drop, hj, if_true, hij] at e
      exact e.symm

theorem recast_length {o : Option Own} {W : Spec.V} (hs : Sound A o W) (sz : Nat) :
    (Spec.recast W sz).length = W.xs.length * W.sz / sz := by
  simp [Spec.recast, Spec.chunks, flat_length hs.lengths]

theorem slotOf_take {l : List Cell} {sz c k : Nat} (h : k < c) : slotOf sz (l.take (c * sz)) k = slotOf sz l k := by
  have h1 : (k + 1) * sz ≤ c * sz := Nat.mul_le_mul_right _ h
  rw [Nat.add_mul] at h1
  simp only [slotOf, List.drop_take, List.take_take]
  rw [Nat.min_eq_left (by omega)]

theorem aligned_false_iff {P : Params} : P.aligned = false ↔ ¬ P.al ≤ P.A.align := by
  rw [← aligned_iff]; simp

/-- what `recast_take_from` does to a buffer -/
theorem Sound.recast {o : Option Own} {W : Spec.V} (hs : Sound A o W) {sz al : Nat} (hsz : 0 < sz)
    (hal : al ≤ 128 ∧ ∃ k, al = 2 ^ k) (hrel : al ≤ A.align ↔ W.al ≤ A.align)
    (hsafe : al ≤ A.align ∨ al = W.al ∨ (A.hasExpand = false ∧ al ≤ W.al)) :
    Sound A o ⟨sz, al, W.sz * W.cap / sz, Spec.recast W sz⟩ := by
  have hwf : Wf (prm A ⟨sz, al, W.sz * W.cap / sz, Spec.recast W sz⟩) := ⟨hsz, hal.1, hal.2, hs.wf.apow, hs.wf.fair,
    hs.wf.nofail⟩
  have hlen : (Spec.recast W sz).length ≤ W.sz * W.cap / sz := by
    rw [recast_length hs, Nat.mul_comm W.sz]
    exact Nat.div_le_div_right (Nat.mul_le_mul_right _ hs.len)
  refine ⟨hwf, ?_, ?_, hlen, ?_⟩
  · intro w hw
    have g := hs.good w hw
    have hdm := Nat.div_mul_le_self (W.sz * W.cap) sz
    have hmul := Nat.mul_comm W.sz W.cap
    refine ⟨g.nz, ?_, ?_, ?_, ?_, g.balign⟩
    · have := g.fits
      simp only [prm] at this ⊢
      omega
    · intro ha
      exact g.al0 (aligned_iff.2 (hrel.1 (aligned_iff.1 ha)))
    · intro ha
      have ha' : (prm A W).aligned = false := by
        exact aligned_false_iff.2 (fun h => aligned_false_iff.1 ha (hrel.2 h))
      obtain ⟨a, b, c, d⟩ := g.al1 ha'
      refine ⟨a, b, c, fun hx => ?_⟩
      have ha : ¬ al ≤ A.align := aligned_false_iff.1 ha
      rcases hsafe with h | h | h
      · exact absurd h ha
      · subst h; exact d hx
      · rw [prm] at hx; simp [h.1] at hx
    · by_cases ha : al ≤ A.align
      · have ha' : (prm A W).aligned = true := by
          exact aligned_iff.2 (hrel.1 ha)
        have h0 := g.al0 ha'
        rw [h0, Nat.add_zero]
        exact Nat.dvd_trans (hwf.dvd ha) g.balign
      · rcases hsafe with h | h | h
        · exact absurd h ha
        · have := g.addr; simp only [prm] at this ⊢; rw [h]; exact this
        · exact Nat.dvd_trans (pow_dvd hal.2 hs.wf.pow h.2) g.addr
  · intro hw
    have := hs.cap0 hw
    simp [this]
  · intro k b hk
    have hb := hs.below.chunk hk
    have hlt := (List.getElem?_eq_some_iff.1 hk).1
    rw [recast_length hs] at hlt
    have hlt' : k < W.xs.length * W.sz / sz := hlt
    have h1 : (k + 1) * sz ≤ W.xs.length * W.sz := by
      have := (Nat.le_div_iff_mul_le hsz).1 (Nat.succ_le_of_lt hlt')
      exact this
    rw [Nat.add_mul] at h1
    cases o with
    | none =>
      have := hs.cap0 rfl
      have := hs.len
      have h0 : W.xs.length = 0 := by omega
      rw [h0] at hlt'; simp at hlt'
    | some w =>
      rw [← hb]
      have hne : W.xs.length * W.sz ≠ 0 := by omega
      simp only [slotO, slot, bytesOf, hne, if_false, prm]
      apply List.ext_getElem?
      intro j
      simp only [slotOf, List.getElem?_take, List.getElem?_drop, sl_getElem?]
      by_cases e : j < sz
      · simp only [e, if_true]
        rw [if_pos (by omega), Nat.add_assoc]
      · simp [e]

end Itlib.PodVector
