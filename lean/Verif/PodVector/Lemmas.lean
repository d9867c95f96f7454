import Verif.PodVector.Exec

/-! # Memory of a `pod_vector`: slots, buffers, allocation -/
namespace Itlib.PodVector
open Itlib

/-! ### Cells and slots -/

@[simp] theorem sl_length (b : Block) (o n : Nat) : (b.sl o n).length = n := by simp [Block.sl]

theorem sl_getElem? (b : Block) (o n i : Nat) : (b.sl o n)[i]? = if i < n then some (b.cells (o + i)) else none := by
  simp only [Block.sl, List.getElem?_map, List.getElem?_range]
  by_cases h : i < n <;> simp [h]

theorem sl_ext {b c : Block} {o p n : Nat} (h : ∀ j < n, b.cells (o + j) = c.cells (p + j)) : b.sl o n = c.sl p n := by
  apply List.ext_getElem?
  intro i
  rw [sl_getElem?, sl_getElem?]
  by_cases e : i < n
  · simp [e, h i e]
  · simp [e]

/-- the `i`-th chunk of size `sz` -/
def slotOf {α : Type} (sz : Nat) (l : List α) (i : Nat) : List α := (l.drop (i * sz)).take sz

theorem slotOf_sl (b : Block) (o m sz i : Nat) (h : i < m) : slotOf sz (b.sl o (m * sz)) i = b.sl (o + i * sz) sz := by
  have h1 : (i + 1) * sz ≤ m * sz := Nat.mul_le_mul_right _ h
  rw [Nat.add_mul] at h1
  apply List.ext_getElem?
  intro j
  simp only [slotOf, List.getElem?_take, List.getElem?_drop, sl_getElem?]
  by_cases e : j < sz
  · simp only [e, if_true]
    rw [if_pos (by omega), Nat.add_assoc]
  · simp [e]

theorem slotOf_zero {α : Type} (sz : Nat) (l : List α) (h : l.length = sz) : slotOf sz l 0 = l := by
  simp [slotOf, ← h]

@[simp] theorem wr_size (b : Block) (o : Nat) (l : List Cell) : (b.wr o l).size = b.size := rfl

theorem wr_slot (b : Block) (off k m sz : Nat) (l : List Cell) (hl : l.length = m * sz) (i : Nat) :
    (b.wr (off + k * sz) l).sl (off + i * sz) sz =
      if k ≤ i ∧ i < k + m then slotOf sz l (i - k) else b.sl (off + i * sz) sz := by
  apply List.ext_getElem?
  intro j
  by_cases hj : j < sz
  · by_cases h : k ≤ i ∧ i < k + m
    · obtain ⟨d, rfl⟩ := Nat.exists_eq_add_of_le h.1
      have hd : d < m := by omega
      have h1 : (d + 1) * sz ≤ m * sz := Nat.mul_le_mul_right _ hd
      rw [Nat.add_mul] at h1
      have e1 : off + (k + d) * sz + j - (off + k * sz) = d * sz + j := by rw [Nat.add_mul]; omega
      simp only [h, and_self, if_true, slotOf, sl_getElem?, hj, Block.wr]
      rw [if_pos (by rw [hl, Nat.add_mul]; omega), e1]
      simp only [List.getElem?_take, hj, if_true, List.getElem?_drop, Nat.add_sub_cancel_left]
      rw [List.getD_eq_getElem?_getD, List.getElem?_eq_getElem (by omega)]
      rfl
    · simp only [h, if_false, sl_getElem?, hj, if_true, Block.wr]
      rw [if_neg]
      rw [hl]
      by_cases h2 : i < k
      · have h1 : (i + 1) * sz ≤ k * sz := Nat.mul_le_mul_right _ h2
        rw [Nat.add_mul] at h1
        omega
      · have h1 : (k + m) * sz ≤ i * sz := Nat.mul_le_mul_right _ (by omega)
        rw [Nat.add_mul] at h1
        omega
  · have e : ∀ (c : Block) (o : Nat), (c.sl o sz)[j]? = none := fun c o => by rw [sl_getElem?, if_neg hj]
    rw [e]
    by_cases h : k ≤ i ∧ i < k + m
    · simp only [h, and_self, if_true, slotOf]
      rw [List.getElem?_eq_none]
      rw [List.length_take]; omega
    · rw [if_neg h, e]

theorem wr_cell_below (b : Block) (o : Nat) (l : List Cell) (i : Nat) (h : i < o) : (b.wr o l).cells i = b.cells i := by
  simp only [Block.wr]
  rw [if_neg (by omega)]

/-! ### Buffers -/

/-- the buffer of a vector: block and offset of the first element in it -/
structure Own where
  base : Nat
  off : Nat
  blk : Block

/-- the bytes of the `i`-th element -/
def slot (P : Params) (w : Own) (i : Nat) : List Cell := w.blk.sl (w.off + i * P.sz) P.sz

@[simp] theorem slot_length (P : Params) (w : Own) (i : Nat) : (slot P w i).length = P.sz := by simp [slot]

/-- `w` is a proper buffer for `cap` elements -/
structure Good (P : Params) (w : Own) (cap : Nat) : Prop where
  nz : w.base ≠ 0
  fits : w.off + cap * P.sz ≤ w.blk.size
  al0 : P.aligned = true → w.off = 0
  al1 : P.aligned = false → 1 ≤ w.off ∧ w.off ≤ 128 ∧ w.blk.cells (w.off - 1) = some (BitVec.ofNat 8 w.off) ∧
    (P.A.hasExpand = true → w.off ≤ P.al)
  addr : P.al ∣ w.base + w.off
  balign : P.A.align ∣ w.base

/-- heaps are finite -/
def Bdd (h : Heap) : Prop := ∃ B, ∀ a, B ≤ a → h a = none

theorem Bdd.update {h : Heap} (hb : Bdd h) (a : Nat) (b : Option Block) : Bdd (Function.update h a b) := by
  obtain ⟨B, hB⟩ := hb
  refine ⟨max B (a + 1), fun c hc => ?_⟩
  have h1 := Nat.le_max_left B (a + 1)
  have h2 := Nat.le_max_right B (a + 1)
  rw [Function.update_of_ne (by omega)]
  exact hB c (by omega)

/-- what is assumed of types and allocators -/
structure Wf (P : Params) : Prop where
  sz : 0 < P.sz
  al128 : P.al ≤ 128
  pow : ∃ k, P.al = 2 ^ k
  apow : ∃ k, P.A.align = 2 ^ k
  fair : Fair P.A
  nofail : ∀ t n, P.A.fails t n = false

theorem pow_dvd {a b : Nat} (ha : ∃ k, a = 2 ^ k) (hb : ∃ k, b = 2 ^ k) (h : a ≤ b) : a ∣ b := by
  obtain ⟨k, rfl⟩ := ha
  obtain ⟨l, rfl⟩ := hb
  exact Nat.pow_dvd_pow 2 ((Nat.pow_le_pow_iff_right (by omega)).1 h)

theorem Wf.al {P : Params} (h : Wf P) : 0 < P.al := by
  obtain ⟨k, hk⟩ := h.pow
  rw [hk]; exact Nat.pow_pos (by omega)

theorem Wf.dvd {P : Params} (h : Wf P) (hl : P.al ≤ P.A.align) : P.al ∣ P.A.align := pow_dvd h.pow h.apow hl

variable {P : Params}

theorem readAt_ok (w : Own) (v : Vec) (H : Heap) (t o n : Nat) (hH : H w.base = some w.blk) (hn : o + n ≤ w.blk.size) :
    readAt ⟨w.base, o⟩ n ⟨v, H, t⟩ = .ok (w.blk.sl o n) ⟨v, H, t⟩ := by
  simp [readAt, M.load, hH, hn]

theorem writeAt_ok (w : Own) (v : Vec) (H : Heap) (t o : Nat) (l : List Cell) (hH : H w.base = some w.blk)
    (hn : o + l.length ≤ w.blk.size) :
    writeAt ⟨w.base, o⟩ l ⟨v, H, t⟩ = .ok () ⟨v, Function.update H w.base (some (w.blk.wr o l)), t⟩ := by
  simp [writeAt, M.mem, hH, hn]

/-- the buffer with another content -/
def Own.wr (w : Own) (o : Nat) (l : List Cell) : Own := { w with blk := w.blk.wr o l }

@[simp] theorem Own.wr_base (w : Own) (o : Nat) (l : List Cell) : (w.wr o l).base = w.base := rfl
@[simp] theorem Own.wr_off (w : Own) (o : Nat) (l : List Cell) : (w.wr o l).off = w.off := rfl

theorem Good.wr {w : Own} {cap : Nat} (g : Good P w cap) (k : Nat) (l : List Cell) :
    Good P (w.wr (w.off + k) l) cap := by
  refine ⟨g.nz, g.fits, g.al0, fun h => ?_, g.addr, g.balign⟩
  obtain ⟨a, b, c, d⟩ := g.al1 h
  refine ⟨a, b, ?_, d⟩
  show (w.blk.wr _ l).cells (w.off - 1) = _
  rw [wr_cell_below _ _ _ _ (by omega)]
  exact c

theorem slot_wr (w : Own) (k m : Nat) (l : List Cell) (hl : l.length = m * P.sz) (i : Nat) :
    slot P (w.wr (w.off + k * P.sz) l) i = if k ≤ i ∧ i < k + m then slotOf P.sz l (i - k) else slot P w i :=
  wr_slot _ _ _ _ _ _ hl i

theorem Good.le {w : Own} {cap : Nat} (g : Good P w cap) {k m : Nat} (h : k + m ≤ cap) :
    w.off + k * P.sz + m * P.sz ≤ w.blk.size := by
  have h1 := Nat.mul_le_mul_right P.sz h
  rw [Nat.add_mul] at h1
  have := g.fits
  omega

theorem writeSlots (w : Own) {cap : Nat} (g : Good P w cap) (v : Vec) (H : Heap) (t k m : Nat) (l : List Cell)
    (hH : H w.base = some w.blk) (hl : l.length = m * P.sz) (hk : k + m ≤ cap) :
    writeAt ⟨w.base, w.off + k * P.sz⟩ l ⟨v, H, t⟩ =
      .ok () ⟨v, Function.update H w.base (some (w.wr (w.off + k * P.sz) l).blk), t⟩ :=
  writeAt_ok w v H t _ l hH (by rw [hl]; exact g.le hk)

theorem readSlots (w : Own) {cap : Nat} (g : Good P w cap) (v : Vec) (H : Heap) (t k m : Nat)
    (hH : H w.base = some w.blk) (hk : k + m ≤ cap) :
    readAt ⟨w.base, w.off + k * P.sz⟩ (m * P.sz) ⟨v, H, t⟩ = .ok (w.blk.sl (w.off + k * P.sz) (m * P.sz)) ⟨v, H, t⟩ :=
  readAt_ok w v H t _ _ hH (g.le hk)

theorem slotOf_read (w : Own) (k m i : Nat) (h : i < m) :
    slotOf P.sz (w.blk.sl (w.off + k * P.sz) (m * P.sz)) i = slot P w (k + i) := by
  rw [slotOf_sl _ _ _ _ _ h, slot, Nat.add_mul, ← Nat.add_assoc]

/-- copying `m` elements from buffer `w` (index `k`) to buffer `q` (index `d`), which may be the same -/
theorem copySlots (w q : Own) {cap cap' : Nat} (g : Good P w cap) (g' : Good P q cap') (v : Vec) (H : Heap)
    (t d k m : Nat) (hw : H w.base = some w.blk) (hq : H q.base = some q.blk) (hk : k + m ≤ cap) (hd : d + m ≤ cap') :
    ∃ q' : Own, copyBytes ⟨q.base, q.off + d * P.sz⟩ ⟨w.base, w.off + k * P.sz⟩ (m * P.sz) ⟨v, H, t⟩ =
        .ok () ⟨v, Function.update H q.base (some q'.blk), t⟩ ∧ q'.base = q.base ∧ q'.off = q.off ∧ Good P q' cap' ∧
      ∀ i, slot P q' i = if d ≤ i ∧ i < d + m then slot P w (k + (i - d)) else slot P q i := by
  refine ⟨q.wr (q.off + d * P.sz) (w.blk.sl (w.off + k * P.sz) (m * P.sz)), ?_, rfl, rfl, g'.wr _ _, fun i => ?_⟩
  · simp only [copyBytes, M.bind_apply, readSlots w g v H t k m hw hk]
    exact writeSlots q g' v H t d m _ hq (by simp) hd
  · rw [slot_wr _ _ m _ (by simp)]
    by_cases h : d ≤ i ∧ i < d + m
    · rw [if_pos h, if_pos h, slotOf_read _ _ _ _ (by omega)]
    · rw [if_neg h, if_neg h]

/-! ### Allocation -/

theorem malloc_ok (hP : Wf P) (v : Vec) (h : Heap) (t n : Nat) (hb : Bdd h) :
    ∃ b, malloc P.A n ⟨v, h, t⟩ = .ok ⟨b, 0⟩ ⟨v, Function.update h b (some ⟨n, fun _ => none⟩), t + 1⟩ ∧
      b ≠ 0 ∧ P.A.align ∣ b ∧ h b = none :=
  ⟨P.A.pick h t n, by simp [malloc, hP.nofail], hP.fair h t n hb⟩

theorem aligned_iff : P.aligned = true ↔ P.al ≤ P.A.align := by simp [Params.aligned]

theorem aMalloc_ok (hP : Wf P) (v : Vec) (h : Heap) (t n : Nat) (hb : Bdd h) :
    ∃ q : Own, aMalloc P n ⟨v, h, t⟩ = .ok ⟨q.base, q.off⟩ ⟨v, Function.update h q.base (some q.blk), t + 1⟩ ∧
      Good P q n ∧ h q.base = none := by
  by_cases ha : P.aligned = true
  · obtain ⟨b, e, h0, hd, hn⟩ := malloc_ok hP v h t (n * P.sz) hb
    refine ⟨⟨b, 0, ⟨n * P.sz, fun _ => none⟩⟩, ?_, ⟨h0, by simp, fun _ => rfl, by simp [ha], ?_, hd⟩, hn⟩
    · simp only [aMalloc, ha, if_true]; exact e
    · exact Nat.dvd_trans (hP.dvd (aligned_iff.1 ha)) (by simpa using hd)
  · obtain ⟨b, e, h0, hd, hn⟩ := malloc_ok hP v h t (n * P.sz + P.al) hb
    have hm : b % P.al < P.al := Nat.mod_lt _ hP.al
    have h128 := hP.al128
    refine ⟨⟨b, P.al - b % P.al, (⟨n * P.sz + P.al, fun _ => none⟩ : Block).wr (P.al - b % P.al - 1)
      [some (BitVec.ofNat 8 (P.al - b % P.al))]⟩, ?_, ⟨h0, ?_, ?_, fun _ => ⟨?_, ?_, ?_, ?_⟩, ?_, hd⟩, hn⟩
    · have hw := writeAt_ok ⟨b, 0, ⟨n * P.sz + P.al, fun _ => none⟩⟩ v
        (Function.update h b (some ⟨n * P.sz + P.al, fun _ => none⟩)) (t + 1) (P.al - b % P.al - 1)
        [some (BitVec.ofNat 8 (P.al - b % P.al))] (by simp) (by simp; omega)
      simp only [Bool.not_eq_true] at ha
      have hnn : (⟨b, 0⟩ : Ptr) ≠ null := by simp [null, h0]
      simp only [aMalloc, ha, M.bind_apply, e, alignPtr, hnn, Ptr.addr, Nat.add_zero, Nat.zero_add, hw, M.pure_apply,
        Ptr.add, Function.update_idem, Bool.false_eq_true, if_false]
    · simp only [wr_size]; omega
    · intro h'; exact absurd h' ha
    · show 1 ≤ P.al - b % P.al; omega
    · show P.al - b % P.al ≤ 128; omega
    · show (Block.wr _ _ _).cells (P.al - b % P.al - 1) = some (BitVec.ofNat 8 (P.al - b % P.al))
      simp [Block.wr]
      omega
    · intro _; show P.al - b % P.al ≤ P.al; omega
    · show P.al ∣ b + (P.al - b % P.al)
      have h1 := Nat.div_add_mod b P.al
      refine ⟨b / P.al + 1, ?_⟩
      rw [Nat.mul_add]
      omega

theorem realAddr_ok {w : Own} {cap : Nat} (g : Good P w cap) (v : Vec) (H : Heap) (t : Nat)
    (hH : H w.base = some w.blk) : realAddr P ⟨w.base, w.off⟩ ⟨v, H, t⟩ = .ok ⟨w.base, 0⟩ ⟨v, H, t⟩ := by
  by_cases ha : P.aligned = true
  · simp [realAddr, ha, g.al0 ha]
  · simp only [Bool.not_eq_true] at ha
    obtain ⟨h1, h2, h3, _⟩ := g.al1 ha
    have hn : (⟨w.base, w.off⟩ : Ptr) ≠ null := by simp [null, g.nz]
    have ho : w.off ≠ 0 := by omega
    have hf := g.fits
    have hr := readAt_ok w v H t (w.off - 1) 1 hH (by omega)
    have e : w.blk.sl (w.off - 1) 1 = [some (BitVec.ofNat 8 w.off)] := by simp [Block.sl, h3]
    rw [e] at hr
    have h4 : (BitVec.ofNat 8 w.off).toNat = w.off := by simp; omega
    simp [realAddr, ha, hn, ho, hr, h4]

theorem free_ok (w : Own) (v : Vec) (H : Heap) (t : Nat) (h0 : w.base ≠ 0) (hH : H w.base = some w.blk) :
    free ⟨w.base, 0⟩ ⟨v, H, t⟩ = .ok () ⟨v, Function.update H w.base none, t⟩ := by
  simp [free, M.mem, null, h0, hH]

theorem aFree_ok {w : Own} {cap : Nat} (g : Good P w cap) (e : Ptr) (c : Nat) (H : Heap) (t : Nat)
    (hH : H w.base = some w.blk) :
    aFreeBegin P ⟨⟨⟨w.base, w.off⟩, e, c⟩, H, t⟩ =
      .ok () ⟨⟨⟨w.base, w.off⟩, e, c⟩, Function.update H w.base none, t⟩ := by
  simp only [aFreeBegin, M.bind_apply, M.get_apply, realAddr_ok g _ H t hH, free_ok w _ H t g.nz hH]

theorem aFree_null (e : Ptr) (c : Nat) (H : Heap) (t : Nat) :
    aFreeBegin P ⟨⟨null, e, c⟩, H, t⟩ = .ok () ⟨⟨null, e, c⟩, H, t⟩ := by
  by_cases ha : P.aligned = true <;> simp [aFreeBegin, realAddr, ha, free, M.mem, null]

/-! ### The buffer of a vector, which may be missing -/

def heapOf (h0 : Heap) : Option Own → Heap
  | none => h0
  | some w => Function.update h0 w.base (some w.blk)

def ptrOf : Option Own → Ptr
  | none => null
  | some w => ⟨w.base, w.off⟩

def slotO (P : Params) (o : Option Own) (i : Nat) : List Cell :=
  match o with
  | none => []
  | some w => slot P w i

/-- `o` is a proper buffer for `cap` elements beside the heap `h0` -/
def Fits (P : Params) (h0 : Heap) (o : Option Own) (cap : Nat) : Prop :=
  match o with
  | none => cap = 0
  | some w => Good P w cap ∧ h0 w.base = none

theorem Bdd.heapOf {h0 : Heap} (hb : Bdd h0) (o : Option Own) : Bdd (heapOf h0 o) := by
  cases o with
  | none => exact hb
  | some w => exact hb.update _ _

/-- the vector with buffer `o` and `n` elements -/
def st (P : Params) (h0 : Heap) (o : Option Own) (cap n t : Nat) : St :=
  ⟨⟨ptrOf o, (ptrOf o).add (n * P.sz), cap⟩, heapOf h0 o, t⟩

theorem size_st (hP : Wf P) (p : Ptr) (n c : Nat) (H : Heap) (t : Nat) :
    size P ⟨⟨p, p.add (n * P.sz), c⟩, H, t⟩ = .ok n ⟨⟨p, p.add (n * P.sz), c⟩, H, t⟩ := by
  simp [size, Ptr.add, Nat.mul_div_cancel n hP.sz]

/-- the state after the buffer was exchanged for one of `N` elements, the first `n` being kept; `end` is still to be set -/
def Moved (P : Params) (h0 : Heap) (o : Option Own) (n N : Nat) (s : St) : Prop :=
  ∃ q e t, s = ⟨⟨ptrOf (some q), e, N⟩, heapOf h0 (some q), t⟩ ∧ Good P q N ∧ h0 q.base = none ∧
    ∀ i, i < n → slot P q i = slotO P o i

theorem update_swap (h0 : Heap) (w q : Own) (hw : h0 w.base = none) (hne : q.base ≠ w.base) (b : Option Block) :
    Function.update (Function.update (Function.update h0 w.base (some w.blk)) q.base b) w.base none =
      Function.update h0 q.base b := by
  rw [Function.update_comm hne, Function.update_idem, ← Function.update_eq_self (f := h0) w.base, hw,
    Function.update_idem]

theorem fresh_of {h0 : Heap} {w : Own} {a : Nat} (h : Function.update h0 w.base (some w.blk) a = none) :
    a ≠ w.base ∧ h0 a = none := by
  have hne : a ≠ w.base := by intro e; rw [e] at h; simp at h
  rw [Function.update_of_ne hne] at h
  exact ⟨hne, h⟩

theorem mallocCopy_ok (hP : Wf P) {h0 : Heap} (hb : Bdd h0) {w : Own} {cap : Nat} (g : Good P w cap)
    (hw : h0 w.base = none) (n N t : Nat) (e : Ptr) (c : Nat) (hn : n ≤ cap) (hN : n ≤ N) :
    ∃ s, mallocCopy P N n ⟨⟨⟨w.base, w.off⟩, e, c⟩, heapOf h0 (some w), t⟩ = .ok () s ∧ Moved P h0 (some w) n N s := by
  obtain ⟨q, e1, gq, hq⟩ := aMalloc_ok hP ⟨⟨w.base, w.off⟩, e, c⟩ (heapOf h0 (some w)) t N (hb.heapOf (some w))
  obtain ⟨hne, hq0⟩ := fresh_of hq
  have hHw : Function.update (heapOf h0 (some w)) q.base (some q.blk) w.base = some w.blk := by
    rw [Function.update_of_ne hne.symm]; simp [heapOf]
  by_cases hz : n = 0
  · subst hz
    refine ⟨⟨⟨⟨q.base, q.off⟩, e, N⟩, Function.update h0 q.base (some q.blk), t + 1⟩, ?_, ⟨q, e, t + 1, rfl, gq, hq0, ?_⟩⟩
    · simp only [mallocCopy, M.bind_apply, e1, M.get_apply, ne_eq, not_true_eq_false, if_false, M.pure_apply,
        aFree_ok g e c _ (t + 1) hHw, setBegin, setCap, M.modify_apply]
      simp only [heapOf, update_swap h0 w q hw hne]
    · intro i hi; omega
  · obtain ⟨q', e2, hqb, hqo, gq', hs⟩ := copySlots w q g gq ⟨⟨w.base, w.off⟩, e, c⟩
      (Function.update (heapOf h0 (some w)) q.base (some q.blk)) (t + 1) 0 0 n hHw (by simp) (by omega) (by omega)
    simp only [Nat.zero_mul, Nat.add_zero] at e2
    rw [Function.update_idem] at e2
    have hHw' : Function.update (heapOf h0 (some w)) q.base (some q'.blk) w.base = some w.blk := by
      rw [Function.update_of_ne hne.symm]; simp [heapOf]
    refine ⟨⟨⟨⟨q'.base, q'.off⟩, e, N⟩, Function.update h0 q'.base (some q'.blk), t + 1⟩, ?_,
      ⟨q', e, t + 1, rfl, gq', by rw [hqb]; exact hq0, ?_⟩⟩
    · simp only [mallocCopy, M.bind_apply, e1, M.get_apply, ne_eq, hz, not_false_eq_true, if_true, e2,
        aFree_ok g e c _ (t + 1) hHw', setBegin, setCap, M.modify_apply]
      simp only [heapOf, update_swap h0 w q hw hne, hqb, hqo]
    · intro i hi
      rw [hs, if_pos (by omega)]
      simp [slotO]

theorem slot_resize (w : Own) {cap : Nat} (g : Good P w cap) (m i : Nat) (hi : i < cap) (b o : Nat) (ho : o = w.off) :
    slot P ⟨b, o, w.blk.resize m⟩ i = slot P w i := by
  subst ho
  have h1 := g.le (k := i) (m := 1) (by omega)
  apply sl_ext
  intro j hj
  simp only [Block.resize]
  rw [if_pos (by omega)]

theorem aRealloc_ok (hP : Wf P) {h0 : Heap} (hb : Bdd h0) {o : Option Own} {cap : Nat} (f : Fits P h0 o cap)
    (n N t : Nat) (hn : n ≤ cap) (hN : n ≤ N) :
    ∃ s, aReallocBegin P N (st P h0 o cap n t) = .ok () s ∧ Moved P h0 o n N s := by
  cases o with
  | none =>
    simp only [Fits] at f
    by_cases ha : P.aligned = true
    · obtain ⟨q, e1, gq, hq⟩ := aMalloc_ok hP ⟨null, null.add (n * P.sz), cap⟩ h0 t N hb
      simp only [aMalloc, ha, if_true] at e1
      refine ⟨⟨⟨⟨q.base, q.off⟩, null.add (n * P.sz), N⟩, Function.update h0 q.base (some q.blk), t + 1⟩, ?_,
        ⟨q, null.add (n * P.sz), t + 1, rfl, gq, hq, by intro i hi; omega⟩⟩
      simp only [aReallocBegin, M.bind_apply, M.get_apply, st, ptrOf, heapOf, ha, if_true, realloc, e1, setBegin, setCap,
        M.modify_apply]
    · simp only [Bool.not_eq_true] at ha
      obtain ⟨q, e1, gq, hq⟩ := aMalloc_ok hP ⟨null, null.add (n * P.sz), cap⟩ h0 t N hb
      refine ⟨⟨⟨⟨q.base, q.off⟩, null.add (n * P.sz), N⟩, Function.update h0 q.base (some q.blk), t + 1⟩, ?_,
        ⟨q, null.add (n * P.sz), t + 1, rfl, gq, hq, by intro i hi; omega⟩⟩
      simp only [aReallocBegin, M.bind_apply, M.get_apply, st, ptrOf, heapOf, ha, e1, setBegin, setCap, M.pure_apply,
        M.modify_apply, Bool.false_eq_true, if_false, if_true]
  | some w =>
    obtain ⟨g, hw⟩ := f
    have hnn : (⟨w.base, w.off⟩ : Ptr) ≠ null := by simp [null, g.nz]
    have hnn0 : (⟨w.base, 0⟩ : Ptr) ≠ null := by simp [null, g.nz]
    by_cases ha : P.aligned = true
    · have ho := g.al0 ha
      have hH : heapOf h0 (some w) w.base = some w.blk := by simp [heapOf]
      have hadd := g.addr
      by_cases hm : P.A.moves t = true
      · obtain ⟨hz, hd, hf⟩ := hP.fair (heapOf h0 (some w)) t (N * P.sz) (hb.heapOf (some w))
        obtain ⟨hne, hq0⟩ := fresh_of hf
        refine ⟨⟨⟨⟨P.A.pick (heapOf h0 (some w)) t (N * P.sz), 0⟩, (ptrOf (some w)).add (n * P.sz), N⟩,
          Function.update h0 (P.A.pick (heapOf h0 (some w)) t (N * P.sz)) (some (w.blk.resize (N * P.sz))), t + 1⟩, ?_,
          ⟨⟨P.A.pick (heapOf h0 (some w)) t (N * P.sz), 0, w.blk.resize (N * P.sz)⟩, _, t + 1, rfl,
            ⟨hz, by simp [Block.resize], fun _ => rfl, by simp [ha], ?_, hd⟩, hq0, ?_⟩⟩
        · simp only [aReallocBegin, M.bind_apply, M.get_apply, st, ptrOf, ha, if_true, realloc, hnn0, if_false, ho, hH, hm,
            hP.nofail, Bool.false_eq_true, setBegin, setCap, M.modify_apply]
          simp only [heapOf, Function.update_idem]
          rw [show Function.update h0 w.base none = h0 by rw [← hw, Function.update_eq_self]]
        · exact Nat.dvd_trans (hP.dvd (aligned_iff.1 ha)) (by simpa using hd)
        · intro i hi
          exact slot_resize w g _ i (by omega) _ _ ho.symm
      · refine ⟨⟨⟨⟨w.base, w.off⟩, (ptrOf (some w)).add (n * P.sz), N⟩,
          Function.update h0 w.base (some (w.blk.resize (N * P.sz))), t + 1⟩, ?_,
          ⟨⟨w.base, w.off, w.blk.resize (N * P.sz)⟩, _, t + 1, rfl,
            ⟨g.nz, by simp [Block.resize, ho], fun _ => ho, by simp [ha], hadd, g.balign⟩, hw, ?_⟩⟩
        · simp only [aReallocBegin, M.bind_apply, M.get_apply, st, ptrOf, ha, if_true, realloc, hnn0, if_false, ho, hH, hm,
            hP.nofail, Bool.false_eq_true, setBegin, setCap, M.modify_apply]
          simp only [heapOf, Function.update_idem, Bool.false_eq_true, if_false]
        · intro i hi
          exact slot_resize w g _ i (by omega) _ _ rfl
    · simp only [Bool.not_eq_true] at ha
      obtain ⟨q, e1, gq, hq⟩ := aMalloc_ok hP ⟨⟨w.base, w.off⟩, (ptrOf (some w)).add (n * P.sz), cap⟩
        (heapOf h0 (some w)) t N (hb.heapOf (some w))
      obtain ⟨hne, hq0⟩ := fresh_of hq
      have hHw : Function.update (heapOf h0 (some w)) q.base (some q.blk) w.base = some w.blk := by
        rw [Function.update_of_ne hne.symm]; simp [heapOf]
      obtain ⟨q', e2, hqb, hqo, gq', hs⟩ := copySlots w q g gq ⟨⟨w.base, w.off⟩, (ptrOf (some w)).add (n * P.sz), cap⟩
        (Function.update (heapOf h0 (some w)) q.base (some q.blk)) (t + 1) 0 0 n hHw (by simp) (by omega) (by omega)
      simp only [Nat.zero_mul, Nat.add_zero] at e2
      rw [Function.update_idem] at e2
      have hHw' : Function.update (heapOf h0 (some w)) q.base (some q'.blk) w.base = some w.blk := by
        rw [Function.update_of_ne hne.symm]; simp [heapOf]
      refine ⟨⟨⟨⟨q'.base, q'.off⟩, (ptrOf (some w)).add (n * P.sz), N⟩, Function.update h0 q'.base (some q'.blk), t + 1⟩,
        ?_, ⟨q', _, t + 1, rfl, gq', by rw [hqb]; exact hq0, ?_⟩⟩
      · simp only [ptrOf] at e1 e2
        have e3 := size_st hP ⟨w.base, w.off⟩ n cap (Function.update (heapOf h0 (some w)) q.base (some q.blk)) (t + 1)
        simp only [aReallocBegin, M.bind_apply, M.get_apply, st, ptrOf, ha, Bool.false_eq_true, if_false, e1, hnn, e2, e3,
          aFree_ok g _ _ _ (t + 1) hHw', setBegin, setCap, M.modify_apply]
        simp only [heapOf, update_swap h0 w q hw hne, hqb, hqo]
      · intro i hi
        rw [hs, if_pos (by omega)]
        simp [slotO]

theorem aExpand_ok {h0 : Heap} {w : Own} {cap : Nat} (g : Good P w cap)
    (hw : h0 w.base = none) (hx : P.A.hasExpand = true) (n N t : Nat) (hn : n ≤ cap) (hN : n ≤ N) :
    (∃ s, aExpandBegin P N (st P h0 (some w) cap n t) = .ok true s ∧ Moved P h0 (some w) n N s ∧
        s.v.bgn = ⟨w.base, w.off⟩) ∨
    aExpandBegin P N (st P h0 (some w) cap n t) = .ok false (st P h0 (some w) cap n (t + 1)) := by
  have hH : heapOf h0 (some w) w.base = some w.blk := by simp [heapOf]
  by_cases ha : P.aligned = true
  · have ho := g.al0 ha
    by_cases hm : P.A.expands t = true
    · left
      refine ⟨⟨⟨⟨w.base, w.off⟩, (ptrOf (some w)).add (n * P.sz), N⟩,
          Function.update h0 w.base (some (w.blk.resize (N * P.sz))), t + 1⟩, ?_,
          ⟨⟨w.base, w.off, w.blk.resize (N * P.sz)⟩, _, t + 1, rfl,
            ⟨g.nz, by simp [Block.resize, ho], fun _ => ho, by simp [ha], g.addr, g.balign⟩, hw, ?_⟩, rfl⟩
      · simp only [aExpandBegin, M.bind_apply, M.get_apply, st, ptrOf, ha, if_true, expand, ho, hH, hm, setCap,
          M.modify_apply, M.pure_apply]
        simp only [heapOf, Function.update_idem]
      · intro i hi
        exact slot_resize w g _ i (by omega) _ _ rfl
    · right
      simp only [aExpandBegin, M.bind_apply, M.get_apply, st, ptrOf, ha, if_true, expand, ho, hH, hm, if_false,
        M.pure_apply, Bool.false_eq_true]
  · simp only [Bool.not_eq_true] at ha
    obtain ⟨h1, h2, h3, h4⟩ := g.al1 ha
    have h4 := h4 hx
    have e1 := realAddr_ok g ⟨⟨w.base, w.off⟩, (⟨w.base, w.off⟩ : Ptr).add (n * P.sz), cap⟩ (heapOf h0 (some w)) t hH
    by_cases hm : P.A.expands t = true
    · left
      have hfit := g.fits
      refine ⟨⟨⟨⟨w.base, w.off⟩, (ptrOf (some w)).add (n * P.sz), N⟩,
          Function.update h0 w.base (some (w.blk.resize (N * P.sz + P.al))), t + 1⟩, ?_,
          ⟨⟨w.base, w.off, w.blk.resize (N * P.sz + P.al)⟩, _, t + 1, rfl,
            ⟨g.nz, ?_, by simp [ha], fun _ => ⟨h1, h2, ?_, fun _ => h4⟩, g.addr, g.balign⟩, hw, ?_⟩, rfl⟩
      · simp only [aExpandBegin, M.bind_apply, M.get_apply, st, ptrOf, ha, Bool.false_eq_true, if_false, e1, expand, hH,
          hm, setCap, M.modify_apply, M.pure_apply, if_true]
        simp only [heapOf, Function.update_idem]
      · simp only [Block.resize]; omega
      · simp only [Block.resize]; rw [if_pos (by omega)]; exact h3
      · intro i hi
        exact slot_resize w g _ i (by omega) _ _ rfl
    · right
      simp only [aExpandBegin, M.bind_apply, M.get_apply, st, ptrOf, ha, Bool.false_eq_true, if_false, e1, expand, hH,
        hm, M.pure_apply, if_true]

end Itlib.PodVector
