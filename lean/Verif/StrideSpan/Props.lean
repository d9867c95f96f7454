import Verif.StrideSpan.Spec
import Verif.View.Lemmas

/-! # Properties of `stride_span` and `poly_span` (C33) -/
namespace Itlib.StrideSpan
open Itlib M View

/-- 2^64 -/
local notation "W" => 18446744073709551616

structure RepSome (a pitch n : Nat) (v : View) (s : SSpan) : Prop where
  valid : Valid a pitch n v
  stride_lt : v.step * pitch < W
  beg : s.beg = a + v.off * pitch
  stride : s.stride = v.step * pitch
  num : s.num = v.len
  fn : s.fn = v.fn

def Rep (a pitch n : Nat) : Option View → SSpan → Prop
  | some v, s => RepSome a pitch n v s
  | none, s => s.beg = 0 ∧ s.num = 0

section
variable {a pitch n : Nat}

theorem wmul_comm (x y : Nat) : wmul x y = wmul y x := by unfold wmul; rw [Nat.mul_comm]
theorem wmul_zero (x : Nat) : wmul 0 x = 0 := by unfold wmul; rw [Nat.zero_mul, Nat.zero_mod]
theorem wadd_zero : wadd 0 0 = 0 := by unfold wadd; rw [Nat.zero_mod]
theorem wsub_zero : wsub 0 0 = 0 := by unfold wsub; simp

theorem addr {v : View} (hv : Valid a pitch n v) {m : Nat} (hm : m ≤ v.len) :
    wadd (a + v.off * pitch) (wmul m (v.step * pitch)) = a + (v.off + m * v.step) * pitch ∧
    m * (v.step * pitch) ≤ v.len * (v.step * pitch) ∧ a + v.off * pitch + v.len * (v.step * pitch) < W := by
  have h := hv.2.2
  rw [Nat.add_mul, Nat.mul_assoc] at h
  have h1 : m * (v.step * pitch) ≤ v.len * (v.step * pitch) := Nat.mul_le_mul_right _ hm
  refine ⟨?_, h1, by omega⟩
  rw [wmul_of_lt (by omega), wadd_of_lt (by omega), Nat.add_mul, Nat.mul_assoc]; omega

theorem len_lt {v : View} (hv : Valid a pitch n v) (hp : 0 < pitch) : v.len < W := by
  have h := (addr hv (Nat.le_refl _)).2.2
  have : v.len * 1 ≤ v.len * (v.step * pitch) := Nat.mul_le_mul_left _ (Nat.mul_pos hv.1 hp)
  omega

theorem slice_valid {v : View} (hv : Valid a pitch n v) (off cnt : Nat) : Valid a pitch n (View.Spec.slice v off cnt) := by
  obtain ⟨h1, h2, h3⟩ := hv
  refine ⟨h1, fun i hi => ?_, ?_⟩
  · simp only [View.Spec.slice] at hi ⊢
    have := h2 (min off v.len + i) (by omega)
    rw [Nat.add_mul] at this
    omega
  · simp only [View.Spec.slice]
    have h4 : (min off v.len + min cnt (v.len - off)) * v.step ≤ v.len * v.step := Nat.mul_le_mul_right _ (by omega)
    rw [Nat.add_mul] at h4
    have h5 : (v.off + min off v.len * v.step + min cnt (v.len - off) * v.step) * pitch ≤ (v.off + v.len * v.step) * pitch :=
      Nat.mul_le_mul_right _ (by omega)
    omega

theorem subspan_rep (hp : 0 < pitch) {v : Option View} {s : SSpan} {off : Nat} {cnt : Option Nat} (h : Rep a pitch n v s) :
    Rep a pitch n (v.map fun v => View.Spec.slice v off (cnt.getD v.len)) (subspan s off cnt) := by
  cases v with
  | none =>
    obtain ⟨h1, h2⟩ := h
    simp only [Option.map_none, Rep, subspan, h2]
    split
    · simp [mk', h1, wadd, wmul]
    · have : off = 0 := by omega
      subst this
      simp [mk', h1, wadd, wmul, wsub]
  | some v =>
    have hlen := len_lt h.valid hp
    simp only [Option.map_some, Rep, subspan, h.num, h.stride, h.beg, h.fn]
    split
    · rename_i hlt
      have e : min off v.len = v.len := by omega
      have e' : v.len - off = 0 := by omega
      exact ⟨slice_valid h.valid _ _, h.stride_lt, by simp [View.Spec.slice, mk', e, (addr h.valid (Nat.le_refl _)).1], rfl,
        by simp [View.Spec.slice, e', mk'], rfl⟩
    · have e : min off v.len = off := by omega
      have e3 : wsub v.len off = v.len - off := wsub_of_le (by omega) hlen
      refine ⟨slice_valid h.valid _ _, h.stride_lt, by simp [View.Spec.slice, mk', e, (addr h.valid (show off ≤ v.len by omega)).1], rfl, ?_, rfl⟩
      simp only [View.Spec.slice, mk', e3]
      cases cnt with
      | none => simp only [Option.getD_none]; split <;> omega
      | some c => simp only [Option.getD_some]; split <;> omega

theorem laws {Mk : Type} {sz : Nat} {ctor : Mk → SSpan} {cview : Mk → Nat → Option View} {c : View.Spec.Cond Mk} (hp : 0 < pitch)
    (ha : 0 < a)
    (hctor : ∀ m v, cview m n = some v → c.ctor m n → Rep a pitch n (some v) (ctor m))
    (hlast : ∀ v m, c.last v m → m ≤ View.Spec.len v) :
    Laws (implOf sz ctor) a pitch n cview c (Rep a pitch n) := by
  refine ⟨hp, ?_, ⟨rfl, rfl⟩, hctor, ?_, ?_, ?_, ?_, ?_, ?_, ?_, ?_, ?_, ?_, ?_, ?_, ?_, ?_, ?_, ?_⟩
  · intro v s h; exact h.valid
  · intro v s off cnt h _; exact subspan_rep hp h
  · intro _
    exact ⟨first, rfl, fun v s m h => subspan_rep (off := 0) (cnt := some m) hp h⟩
  · -- last
    intro v s m h hm
    have hm := hlast _ _ hm
    refine ⟨last, rfl, ?_⟩
    have hnum : s.num = View.Spec.len v ∧ View.Spec.len v < W := by
      cases v with
      | none => exact ⟨h.2, by simp [View.Spec.len]⟩
      | some v => exact ⟨h.num, len_lt h.valid hp⟩
    have := subspan_rep (off := View.Spec.len v - m) (cnt := some m) hp h
    rw [last, hnum.1, wsub_of_le hm hnum.2]
    cases v with
    | none => exact this
    | some v =>
      have heq : View.Spec.slice v (v.len - m) v.len = View.Spec.slice v (v.len - m) m := by
        simp only [View.Spec.len] at hm
        simp only [View.Spec.slice, View.mk.injEq, true_and, and_true]; omega
      simpa [heq, View.Spec.len] using this
  · -- remove_prefix
    intro v s m h hm
    cases v with
    | none =>
      simp only [View.Spec.len] at hm
      have : m = 0 := by omega
      subst this
      obtain ⟨h1, h2⟩ := h
      exact ⟨by simp [implOf, removePrefix, h1, wadd_zero, wmul_zero], by simp [implOf, removePrefix, h2, wsub_zero]⟩
    | some v =>
      simp only [View.Spec.len] at hm
      have e : min m v.len = m := by omega
      have e' : min v.len (v.len - m) = v.len - m := by omega
      refine ⟨slice_valid h.valid _ _, h.stride_lt, ?_, h.stride, ?_, h.fn⟩
      · simp [View.Spec.slice, implOf, removePrefix, h.beg, h.stride, e, (addr h.valid hm).1]
      · simp only [View.Spec.slice, e', implOf, removePrefix, h.num]
        exact wsub_of_le hm (len_lt h.valid hp)
  · -- remove_suffix
    intro v s m h hm
    cases v with
    | none =>
      simp only [View.Spec.len] at hm
      have : m = 0 := by omega
      subst this
      obtain ⟨h1, h2⟩ := h
      exact ⟨by simp [implOf, removeSuffix, h1], by simp [implOf, removeSuffix, h2, wsub_zero]⟩
    | some v =>
      simp only [View.Spec.len] at hm
      have e' : min (v.len - m) (v.len - 0) = v.len - m := by omega
      refine ⟨slice_valid h.valid _ _, h.stride_lt, ?_, h.stride, ?_, h.fn⟩
      · simp [View.Spec.slice, implOf, removeSuffix, h.beg]
      · simp only [View.Spec.slice, e', implOf, removeSuffix, h.num]
        exact wsub_of_le hm (len_lt h.valid hp)
  · intro v s i h hi
    simp only [implOf, at', h.beg, h.stride]
    rw [wmul_comm]
    exact (addr h.valid (by omega)).1
  · intro v s h hi
    have := (addr h.valid (Nat.zero_le _)).1
    simp only [implOf, front, at', h.beg, h.stride]
    rw [wmul_comm, this]
    simp
  · intro v s h hi
    have := (addr h.valid (show v.len - 1 ≤ v.len by omega)).1
    simp only [implOf, back, at', h.beg, h.stride, h.num]
    rw [wsub_of_le (by omega) (len_lt h.valid hp), wmul_comm]
    exact this
  · intro v s h
    cases v with
    | none => exact h.2
    | some v => exact h.num
  · intro v s h
    cases v with
    | none => simp [implOf, empty, h.2, View.Spec.len]
    | some v => simp [implOf, empty, h.num, View.Spec.len]
  · intro v s h
    cases v with
    | none => simp [implOf, bool, h.1]
    | some v =>
      simp only [implOf, bool, h.beg]
      simp
      omega
  · intro v s h; exact h.beg
  · intro v s h
    simp only [implOf, fin, h.beg, h.num, h.stride]
    exact (addr h.valid (Nat.le_refl _)).1
  · intro v s h; exact h.stride
  · intro v s h; exact h.fn
  · intro s h
    simp [implOf, fin, h.1, h.2, wadd_zero, wmul_zero]

/-! ### The constructors -/

theorem count_range (n c : Nat) : ((List.range n).filter fun p => p < c).length = min n c := by
  induction n with
  | zero => simp
  | succ n ih =>
    rw [List.range_succ, List.filter_append, List.length_append, ih]
    by_cases h : n < c
    · simp [h]; omega
    · simp [h]; omega

/-- number of `p` with `off + p * step < n` -/
theorem count_eq {n off step : Nat} (hs : 0 < step) (ho : off < n + step) :
    ((List.range n).filter fun p => off + p * step < n).length = (n + step - 1 - off) / step := by
  have hiff : ∀ p, (off + p * step < n ↔ p < (n + step - 1 - off) / step) := by
    intro p
    rw [← Nat.succ_le_iff (m := p), Nat.le_div_iff_mul_le hs, Nat.succ_mul]
    omega
  have : (List.range n).filter (fun p => off + p * step < n) = (List.range n).filter fun p => p < (n + step - 1 - off) / step := by
    congr 1; funext p; simp [hiff p]
  rw [this, count_range]
  have h2 : (n + step - 1 - off) / step < n + 1 := by
    rw [Nat.div_lt_iff_lt_mul hs, Nat.add_mul]
    have : n * 1 ≤ n * step := Nat.mul_le_mul_left _ hs
    omega
  omega

/-- C33. Spans made from an array with offset and stride cover exactly the elements `off`, `off + step`, ... within it. -/
theorem C33_from_array_covers (n off step : Nat) (hs : 0 < step) (ho : off < n + step) (hW : n + step < W) (i : Nat) :
    i < arrayCount n off step ↔ off + i * step < n := by
  have e : wsub (wadd (wsub n off) step) 1 = n + step - 1 - off := by unfold wsub wadd; omega
  simp only [arrayCount, e]
  rw [← Nat.succ_le_iff, Nat.le_div_iff_mul_le hs, Nat.succ_mul]
  omega

theorem ctor_rep (sz : Nat) (m : Ctor) (v : View) (hm : ctorView m n = some v) (hc : (cond a pitch).ctor m n) :
    Rep a pitch n (some v) ((impl sz pitch a n).ctor m) := by
  cases m with
  | array off step =>
    obtain ⟨ho, hW, hf⟩ := hc
    have hf := hf v hm
    simp only [ctorView] at hm
    split at hm
    · rename_i hs
      simp only [Option.some.injEq] at hm
      have hcount := count_eq hs ho
      rw [hcount] at hm
      subst hm
      obtain ⟨hf1, hf2⟩ := hf
      simp only at hf1 hf2
      have e : wsub (wadd (wsub n off) step) 1 = n + step - 1 - off := by unfold wsub wadd; omega
      have hoff : off * pitch ≤ (off + (n + step - 1 - off) / step * step) * pitch := Nat.mul_le_mul_right _ (by omega)
      refine ⟨⟨hs, ?_, hf1⟩, hf2, ?_, ?_, ?_, rfl⟩
      · intro i hi
        exact (C33_from_array_covers n off step hs ho hW i).mp (by simpa [arrayCount, e] using hi)
      · simp only [impl, implOf, mk']
        rw [wmul_of_lt (by omega), wadd_of_lt (by omega)]
      · simp only [impl, implOf, mk']
        rw [wmul_of_lt (by rw [Nat.mul_comm]; exact hf2), Nat.mul_comm]
      · simp [impl, implOf, mk', arrayCount, e]
    · simp at hm
  | buf off step len =>
    simp only [ctorView] at hm
    split at hm
    · rename_i hin
      simp only [Option.some.injEq] at hm
      subst hm
      obtain ⟨hf1, hf2⟩ := hc
      obtain ⟨hs, hlen⟩ := hin
      refine ⟨⟨hs, ?_, hf1⟩, hf2, rfl, rfl, rfl, rfl⟩
      intro i hi
      simp only at hi hlen ⊢
      have : i * step ≤ (len - 1) * step := Nat.mul_le_mul_right _ (by omega)
      omega
    · simp at hm
  | members =>
    simp only [ctorView, Option.some.injEq] at hm
    subst hm
    obtain ⟨hf1, hf2⟩ := hc
    exact ⟨⟨by simp, fun i hi => by simpa using hi, hf1⟩, hf2, by simp [impl, implOf, mk'], by simp [impl, implOf, mk'], rfl, rfl⟩

theorem strideLaws (ha : 0 < a) (hp : 0 < pitch) {sz : Nat} : Laws (impl sz pitch a n) a pitch n ctorView (cond a pitch) (Rep a pitch n) :=
  laws hp ha (ctor_rep sz) (fun _ _ h => h)

theorem polyLaws (ha : 0 < a) (hp : 0 < pitch) (hpW : pitch < W) (hf : a + n * pitch < W) :
    Laws (polyImpl pitch a) a pitch n polyCtorView polyCond (Rep a pitch n) := by
  refine laws hp ha ?_ (fun _ _ h => h)
  rintro ⟨off, len, fn⟩ v hm _
  simp only [polyCtorView] at hm
  split at hm
  · rename_i hle
    simp only [Option.some.injEq] at hm
    subst hm
    have h1 : (off + len) * pitch ≤ n * pitch := Nat.mul_le_mul_right _ hle
    refine ⟨⟨by simp, fun i hi => by simp at hi ⊢; omega, by simp only [Nat.mul_one]; omega⟩, ?_, rfl, by simp [mk'], rfl, rfl⟩
    simpa using hpW
  · simp at hm

end

variable {T R : Type}

/-- An array of objects `pitch` bytes apart at address `a`, not at null. -/
structure Array (a pitch : Nat) : Prop where
  pos : 0 < a
  ppos : 0 < pitch

/-- the history on the model of stride_span, starting from null spans, over the array at address `a` -/
def program (sz pitch a n : Nat) (mem : Nat → Option T) (ops : List (Op T Ctor)) : Option (List (Reply T) × World T SSpan) :=
  run (impl sz pitch a n) (fun _ x => x) (fun _ _ v => v) ops (start (impl sz pitch a n) mem)

/-- the same on the specification -/
def specRun (arr : List T) (ops : List (Op T Ctor)) : Option (List (Reply T) × View.Spec.State T) :=
  View.Spec.run (fun _ x => x) (fun _ _ v => v) ctorView ops (View.Spec.start arr)

/-- the needs of the code are met throughout -/
def SafeHistory (a pitch : Nat) (arr : List T) (ops : List (Op T Ctor)) : Prop :=
  View.Spec.SafeRun (cond a pitch) (fun _ x => x) (fun _ _ v => v) ctorView ops (View.Spec.start arr)

theorem program_rel {sz pitch a : Nat} {arr : List T} (hA : Array a pitch) {mem : Nat → Option T}
    (hm : Holds mem a pitch arr) {ops : List (Op T Ctor)} {rs : List (Reply T)} {y : View.Spec.State T}
    (hr : specRun arr ops = some (rs, y)) (hs : SafeHistory a pitch arr ops) :
    ∃ w, program sz pitch a arr.length mem ops = some (rs, w) ∧ Rel a pitch mem (Rep a pitch arr.length) y w ∧
      y.arr.length = arr.length :=
  run_rel (strideLaws hA.pos hA.ppos) (start_rel (strideLaws hA.pos hA.ppos) hm) rfl hs hr

/-- C33. Every history of constructions (from arrays with offset and stride, buffers, members, bases), copies, subspans,
`first`, `last`, removals, reads, writes and iterations of any number of stride_spans over one array behaves as windows with a
step on a list: element `i` is element `off + i * step` of the array, and nothing else is touched. Missing: windows whose end
leaves the address space, `last` of more than there is, offsets far behind the array's end (see the defect theorems). -/
theorem C33_stride_span_history_partial (sz : Nat) {pitch a : Nat} {arr : List T} (hA : Array a pitch) {mem : Nat → Option T}
    (hm : Holds mem a pitch arr) (ops : List (Op T Ctor)) (rs : List (Reply T)) (y : View.Spec.State T)
    (hr : specRun arr ops = some (rs, y)) (hs : SafeHistory a pitch arr ops) :
    ∃ w, program sz pitch a arr.length mem ops = some (rs, w) ∧ Holds w.mem a pitch y.arr ∧
      ∀ p, (∀ i, i < arr.length → p ≠ a + i * pitch) → w.mem p = mem p := by
  obtain ⟨w, h, hrel, hl⟩ := program_rel (sz := sz) hA hm hr hs
  exact ⟨w, h, hrel.mem, fun p hp => hrel.frame p (by rw [hl]; exact hp)⟩

/-- C33. The same for poly_spans: element `i` is what the span's own access function shows of the array's element, and writing
through the reference it returns changes that element. `look` and `put` are arbitrary. -/
theorem C33_poly_span_history_partial (look : Nat → T → R) (put : Nat → T → R → T) {pitch a : Nat} {arr : List T} (hA : Array a pitch)
    (hpW : pitch < W) (hf : a + arr.length * pitch < W) {mem : Nat → Option T}
    (hm : Holds mem a pitch arr) (ops : List (Op R PolyCtor)) (rs : List (Reply R)) (y : View.Spec.State T)
    (hr : View.Spec.run look put polyCtorView ops (View.Spec.start arr) = some (rs, y))
    (hs : View.Spec.SafeRun polyCond look put polyCtorView ops (View.Spec.start arr)) :
    ∃ w, run (polyImpl pitch a) look put ops (start (polyImpl pitch a) mem) = some (rs, w) ∧ Holds w.mem a pitch y.arr ∧
      ∀ p, (∀ i, i < arr.length → p ≠ a + i * pitch) → w.mem p = mem p := by
  have L := polyLaws (n := arr.length) hA.pos hA.ppos hpW hf
  obtain ⟨w, h, hrel, hl⟩ := run_rel L (start_rel L hm) rfl hs hr
  exact ⟨w, h, hrel.mem, fun p hp => hrel.frame p (by rw [hl]; exact hp)⟩

/-! ### Iterators -/

/-- The iterator at element `i` of a window. -/
def iterAt (a pitch : Nat) (v : View) (i : Nat) : Iter := ⟨a + (v.off + i * v.step) * pitch, v.step * pitch⟩

theorem iter_le {a pitch n : Nat} {v : View} (hv : Valid a pitch n v) {i : Nat} (hi : i ≤ v.len) :
    a + v.off * pitch + i * (v.step * pitch) = (iterAt a pitch v i).p ∧ (iterAt a pitch v i).p < W := by
  have h := addr hv hi
  have e : a + v.off * pitch + i * (v.step * pitch) = (iterAt a pitch v i).p := by
    simp only [iterAt]; rw [Nat.add_mul, Nat.mul_assoc]; omega
  exact ⟨e, by omega⟩

theorem mul_ofInt_nonneg {m s : Nat} (h : m * s < W) (hs : 0 < s) : wmul (ofInt (m : Int)) s = m * s := by
  have : m * 1 ≤ m * s := Nat.mul_le_mul_left _ hs
  rw [ofInt_of_nonneg (by omega)]
  exact wmul_of_lt h

theorem mul_ofInt_neg {m s : Nat} (hm : 0 < m) (h : m * s < W) (hs : 0 < s) : wmul (ofInt (-(m : Int))) s = W - m * s := by
  have h1 : m * 1 ≤ m * s := Nat.mul_le_mul_left _ hs
  rw [ofInt_of_neg hm (by omega)]
  have h2 : (W - m) * s + m * s = W * s := by rw [← Nat.add_mul]; congr 1; omega
  have h3 : (W - m) * s = (W - m * s) + W * (s - 1) := by
    have : W * s = W + W * (s - 1) := by
      obtain ⟨s', rfl⟩ := Nat.exists_eq_add_of_lt hs
      simp only [Nat.zero_add, Nat.add_sub_cancel, Nat.mul_add, Nat.mul_one]; omega
    omega
  simp only [wmul]
  rw [h3, Nat.add_mul_mod_self_left]
  exact Nat.mod_eq_of_lt (by omega)

/-- C33. After every history, the iterators of every non-null stride_span obey the random-access laws for moving and
comparing: `begin()` is at element 0 and `end()` at the length; adding or subtracting any signed number that stays in range
moves by that many elements, `++` and `--` by one; comparing iterators compares the element numbers. -/
theorem C33_iterator_laws (sz : Nat) {pitch a : Nat} {arr : List T} (hA : Array a pitch) {mem : Nat → Option T}
    (hm : Holds mem a pitch arr) (ops : List (Op T Ctor)) (rs : List (Reply T)) (y : View.Spec.State T)
    (hr : specRun arr ops = some (rs, y)) (hs : SafeHistory a pitch arr ops) (k : Nat) (v : View) (hv : y.views k = some v) :
    ∃ w, program sz pitch a arr.length mem ops = some (rs, w) ∧
      beginIt (w.views k) = iterAt a pitch v 0 ∧ endIt (w.views k) = iterAt a pitch v v.len ∧
      (∀ (i : Nat) (d : Int), i ≤ v.len → 0 ≤ (i : Int) + d → (i : Int) + d ≤ v.len →
        (iterAt a pitch v i).add d = iterAt a pitch v ((i : Int) + d).toNat) ∧
      (∀ (i : Nat) (d : Int), i ≤ v.len → 0 ≤ (i : Int) - d → (i : Int) - d ≤ v.len →
        (iterAt a pitch v i).sub d = iterAt a pitch v ((i : Int) - d).toNat) ∧
      (∀ i, i < v.len → (iterAt a pitch v i).incr = iterAt a pitch v (i + 1) ∧ (iterAt a pitch v (i + 1)).decr = iterAt a pitch v i) ∧
      (∀ i j, i ≤ v.len → j ≤ v.len →
        ((iterAt a pitch v i).eq (iterAt a pitch v j) = decide (i = j)) ∧
        ((iterAt a pitch v i).lt (iterAt a pitch v j) = decide (i < j)) ∧
        ((iterAt a pitch v i).le (iterAt a pitch v j) = decide (i ≤ j))) := by
  obtain ⟨w, h, hrel, hl⟩ := program_rel (sz := sz) hA hm hr hs
  have hrep := hrel.views k
  rw [hv] at hrep
  have hval := hrep.valid
  have hst : 0 < v.step * pitch := Nat.mul_pos hval.1 hA.ppos
  have hsW := hrep.stride_lt
  have mono : ∀ i j, i ≤ j → i * (v.step * pitch) ≤ j * (v.step * pitch) := fun i j hij => Nat.mul_le_mul_right _ hij
  have smono : ∀ i j, i < j → i * (v.step * pitch) + v.step * pitch ≤ j * (v.step * pitch) := fun i j hij => by
    have := mono (i + 1) j hij
    rw [Nat.add_mul, Nat.one_mul] at this; exact this
  have madd : ∀ i j, (i + j) * (v.step * pitch) = i * (v.step * pitch) + j * (v.step * pitch) := fun i j => Nat.add_mul _ _ _
  have up : ∀ i m, i + m ≤ v.len → wadd (iterAt a pitch v i).p (m * (v.step * pitch)) = (iterAt a pitch v (i + m)).p := by
    intro i m h
    have h1 := iter_le hval (show i ≤ v.len by omega)
    have h2 := iter_le hval h
    rw [madd] at h2
    rw [wadd_of_lt (by omega)]; omega
  have down : ∀ i m, i + m ≤ v.len → wsub (iterAt a pitch v (i + m)).p (m * (v.step * pitch)) = (iterAt a pitch v i).p := by
    intro i m h
    have h1 := iter_le hval (show i ≤ v.len by omega)
    have h2 := iter_le hval h
    rw [madd] at h2
    rw [wsub_of_le (by omega) h2.2]; omega
  have small : ∀ m, m ≤ v.len → m * (v.step * pitch) < W := by
    intro m hm
    have := iter_le hval hm
    omega
  have ext : ∀ (i j : Iter), i.p = j.p → i.stride = j.stride → i = j := by
    rintro ⟨_, _⟩ ⟨_, _⟩ rfl rfl; rfl
  refine ⟨w, h, ?_, ?_, ?_, ?_, ?_, ?_⟩
  · simp [beginIt, iterAt, hrep.beg, hrep.stride]
  · simp only [endIt, fin, hrep.beg, hrep.stride, hrep.num, (addr hval (Nat.le_refl _)).1, iterAt]
  · intro i d hi h0 h1
    refine ext _ _ ?_ rfl
    simp only [Iter.add]
    rcases Int.lt_or_le d 0 with hd | hd
    · obtain ⟨m, rfl⟩ : ∃ m : Nat, d = -(m : Int) := ⟨(-d).toNat, by omega⟩
      have hm0 : 0 < m := by omega
      have hmi : m ≤ i := by omega
      have e : ((i : Int) + -(m : Int)).toNat = i - m := by omega
      have hstr : (iterAt a pitch v i).stride = v.step * pitch := rfl
      rw [e, hstr, mul_ofInt_neg hm0 (small m (by omega)) hst]
      have hd := down (i - m) m (by omega)
      have hi' : i - m + m = i := by omega
      rw [hi'] at hd
      have h2 := iter_le hval hi
      have h3 := small m (by omega)
      have h4 := mono m i hmi
      rw [wsub_of_le (by omega) h2.2] at hd
      rw [← hd]
      unfold wadd
      omega
    · obtain ⟨m, rfl⟩ : ∃ m : Nat, d = (m : Int) := ⟨d.toNat, by omega⟩
      have e : ((i : Int) + (m : Int)).toNat = i + m := by omega
      have hstr : (iterAt a pitch v i).stride = v.step * pitch := rfl
      rw [e, hstr, mul_ofInt_nonneg (small m (by omega)) hst]
      exact up i m (by omega)
  · intro i d hi h0 h1
    refine ext _ _ ?_ rfl
    simp only [Iter.sub]
    rcases Int.lt_or_le d 0 with hd | hd
    · obtain ⟨m, rfl⟩ : ∃ m : Nat, d = -(m : Int) := ⟨(-d).toNat, by omega⟩
      have hm0 : 0 < m := by omega
      have e : ((i : Int) - -(m : Int)).toNat = i + m := by omega
      have hstr : (iterAt a pitch v i).stride = v.step * pitch := rfl
      rw [e, hstr, mul_ofInt_neg hm0 (small m (by omega)) hst]
      have hu := up i m (by omega)
      have h2 := iter_le hval (show i + m ≤ v.len by omega)
      have h3 := small m (by omega)
      have h5 := iter_le hval hi
      rw [madd] at h2
      rw [wadd_of_lt (by omega)] at hu
      rw [← hu]
      unfold wsub
      omega
    · obtain ⟨m, rfl⟩ : ∃ m : Nat, d = (m : Int) := ⟨d.toNat, by omega⟩
      have e : ((i : Int) - (m : Int)).toNat = i - m := by omega
      have hstr : (iterAt a pitch v i).stride = v.step * pitch := rfl
      rw [e, hstr, mul_ofInt_nonneg (small m (by omega)) hst]
      have hd := down (i - m) m (by omega)
      have hi' : i - m + m = i := by omega
      rw [hi'] at hd
      exact hd
  · intro i hi
    have hu := up i 1 (by omega)
    have hd := down i 1 (by omega)
    rw [Nat.one_mul] at hu hd
    exact ⟨ext _ _ hu rfl, ext _ _ hd rfl⟩
  · intro i j hi hj
    have h1 := iter_le hval hi
    have h2 := iter_le hval hj
    have h3 := smono i j
    have h4 := smono j i
    simp only [Iter.eq, Iter.lt, Iter.le]
    rcases Nat.lt_trichotomy i j with hlt | rfl | hlt
    · have := h3 hlt
      refine ⟨?_, ?_, ?_⟩
      · simp only [beq_eq_decide, decide_eq_decide]; omega
      · simp only [decide_eq_decide]; omega
      · simp only [decide_eq_decide]; omega
    · simp
    · have := h4 hlt
      refine ⟨?_, ?_, ?_⟩
      · simp only [beq_eq_decide, decide_eq_decide]; omega
      · simp only [decide_eq_decide]; omega
      · simp only [decide_eq_decide]; omega

/-- C33. The difference of two iterators of a window is the difference of the element numbers, if it is not negative. Missing:
negative differences (see the defect theorem). -/
theorem C33_iterator_difference_partial {a pitch n : Nat} (hA : Array a pitch) {v : View} (hv : Valid a pitch n v)
    (i j : Nat) (hj : j ≤ i) (hi : i ≤ v.len) (hs : v.len < 9223372036854775808) :
    (iterAt a pitch v i).diff (iterAt a pitch v j) = some ((i : Int) - j) := by
  have hst : 0 < v.step * pitch := Nat.mul_pos hv.1 hA.ppos
  have h1 := iter_le hv hi
  have h2 := iter_le hv (show j ≤ v.len by omega)
  have h3 : j * (v.step * pitch) ≤ i * (v.step * pitch) := Nat.mul_le_mul_right _ hj
  have e : wsub (iterAt a pitch v i).p (iterAt a pitch v j).p = (i - j) * (v.step * pitch) := by
    rw [wsub_of_le (by omega) h1.2, Nat.sub_mul]; omega
  have hstr : (iterAt a pitch v i).stride = v.step * pitch := rfl
  simp only [Iter.diff, hstr, e, Nat.mul_div_cancel _ hst]
  rw [if_neg (by omega), toSigned_of_lt (by omega)]
  congr 1; omega

/-- C33, defect. A negative difference of two iterators of a window with a stride of more than one byte is wrong: it is
`2^64 / stride - (j - i)` instead of `i - j`. -/
theorem C33_negative_difference_defect {a pitch n : Nat} {v : View} (hv : Valid a pitch n v)
    (i j : Nat) (hi : i < j) (hj : j ≤ v.len) (hs : 2 ≤ v.step * pitch) (hb : (j - i) * (v.step * pitch) < 9223372036854775808) :
    ∃ d, (iterAt a pitch v i).diff (iterAt a pitch v j) = some d ∧ d ≠ (i : Int) - j := by
  have h1 := iter_le hv hj
  have h2 := iter_le hv (show i ≤ v.len by omega)
  have h3 : i * (v.step * pitch) + (j - i) * (v.step * pitch) = j * (v.step * pitch) := by rw [← Nat.add_mul]; congr 1; omega
  have h4 : 1 * (v.step * pitch) ≤ (j - i) * (v.step * pitch) := Nat.mul_le_mul_right _ (by omega)
  have e : wsub (iterAt a pitch v i).p (iterAt a pitch v j).p = W - (j - i) * (v.step * pitch) := by
    rw [wsub_of_lt (by omega) h1.2]; omega
  have hstr : (iterAt a pitch v i).stride = v.step * pitch := rfl
  refine ⟨_, by simp only [Iter.diff, hstr, e]; rw [if_neg (by omega)], ?_⟩
  have hq : (W - (j - i) * (v.step * pitch)) / (v.step * pitch) < 9223372036854775808 := by
    rw [Nat.div_lt_iff_lt_mul (by omega)]
    have : 9223372036854775808 * 2 ≤ 9223372036854775808 * (v.step * pitch) := Nat.mul_le_mul_left _ hs
    omega
  rw [toSigned_of_lt hq]
  intro hc
  have : (0 : Int) ≤ (((W - (j - i) * (v.step * pitch)) / (v.step * pitch) : Nat) : Int) := Int.natCast_nonneg _
  rw [hc] at this
  omega

/-- C33, defect. `make_stride_span_from_array` with an offset of a stride or more behind the array's end does not give an
empty span. After every history. -/
theorem C33_from_array_offset_defect (sz : Nat) {pitch a : Nat} {arr : List T} (hA : Array a pitch) {mem : Nat → Option T}
    (hm : Holds mem a pitch arr) (ops : List (Op T Ctor)) (rs : List (Reply T)) (y : View.Spec.State T)
    (hr : specRun arr ops = some (rs, y)) (hs : SafeHistory a pitch arr ops) (k off step : Nat) (hstep : 0 < step)
    (hn : arr.length + step ≤ off) (ho : off < W) :
    ∃ w m, program sz pitch a arr.length mem (ops ++ [.make k (.array off step), .size k]) = some (rs ++ [.unit, .num m], w) ∧
      0 < m := by
  obtain ⟨w, h, hrel, hl⟩ := program_rel (sz := sz) hA hm hr hs
  unfold program at h ⊢
  rw [run_append, h]
  refine ⟨{ w with views := Function.update w.views k (mk' (wadd a (wmul off pitch)) (wmul pitch step) (arrayCount arr.length off step) 0) },
    arrayCount arr.length off step, ?_, ?_⟩
  · simp [run, call, exec, View.setView, impl, implOf, mk']
  · have e : wsub (wadd (wsub arr.length off) step) 1 = arr.length + W + step - 1 - off := by
      rw [wsub_of_lt (show arr.length < off by omega) ho]
      generalize arr.length = n at hn ⊢
      unfold wadd wsub
      omega
    simp only [arrayCount, e]
    exact Nat.div_pos (by omega) hstep

/-- C33, defect. `last(n)` of a stride_span with fewer elements is empty, not the whole span (`first` gives the whole
span). After every history. -/
theorem C33_last_too_many_defect (sz : Nat) {pitch a : Nat} {arr : List T} (hA : Array a pitch) {mem : Nat → Option T}
    (hm : Holds mem a pitch arr) (ops : List (Op T Ctor)) (rs : List (Reply T)) (y : View.Spec.State T)
    (hr : specRun arr ops = some (rs, y)) (hs : SafeHistory a pitch arr ops) (j k : Nat) (v : View) (hv : y.views j = some v)
    (m : Nat) (hm' : v.len < m) (hW : m < W) :
    ∃ w, program sz pitch a arr.length mem (ops ++ [.last k j m, .size k]) = some (rs ++ [.unit, .num 0], w) := by
  obtain ⟨w, h, hrel, hl⟩ := program_rel (sz := sz) hA hm hr hs
  have hrep := hrel.views j
  rw [hv] at hrep
  have e : (last (w.views j) m).num = 0 := by
    simp only [last, subspan, hrep.num, wsub_of_lt hm' hW]
    rw [if_pos (by omega)]
    rfl
  unfold program at h ⊢
  rw [run_append, h]
  exact ⟨{ w with views := Function.update w.views k (last (w.views j) m) }, by
    simp [run, call, exec, View.setView, impl, implOf, e]⟩

/-- C33, defect. A stride_span with stride 0 has its elements (all the same object) and its size, but iterating over it gives
nothing, and the difference of its iterators divides by 0. After every history. -/
theorem C33_zero_stride_defect (sz : Nat) {pitch a : Nat} {arr : List T} (hA : Array a pitch) {mem : Nat → Option T}
    (hm : Holds mem a pitch arr) (ops : List (Op T Ctor)) (rs : List (Reply T)) (y : View.Spec.State T)
    (hr : specRun arr ops = some (rs, y)) (hs : SafeHistory a pitch arr ops) (k off len : Nat) (i : Nat) (x : T)
    (hx : y.arr[off]? = some x) (hW : a + off * pitch < W) :
    ∃ w, program sz pitch a arr.length mem (ops ++ [.make k (.buf off 0 len), .size k, .get k i, .toList k]) =
        some (rs ++ [.unit, .num len, .val x, .list []], w) ∧
      (endIt (w.views k)).diff (beginIt (w.views k)) = none := by
  obtain ⟨w, h, hrel, hl⟩ := program_rel (sz := sz) hA hm hr hs
  obtain ⟨hlt, hx'⟩ := List.getElem?_eq_some_iff.mp hx
  have hmem := hrel.mem off hlt
  rw [hx'] at hmem
  unfold program at h ⊢
  rw [run_append, h]
  let s : SSpan := ⟨a + off * pitch, 0, len, 0⟩
  let w1 : World T SSpan := { w with views := Function.update w.views k s }
  have hk : w1.views k = s := by simp [w1]
  have hfin : fin s = s.beg := by simp [fin, s, wmul, wadd]; exact hW
  have hat : at' s i = a + off * pitch := by simp [at', s, wmul, wadd]; exact hW
  have c1 : call (impl sz pitch a arr.length) (fun _ x => x) (fun _ _ v => v) (.make k (.buf off 0 len)) w = some (Reply.unit, w1) := by
    simp [call, exec, View.setView, impl, implOf, mk', w1, s]
  have c2 : call (impl sz pitch a arr.length) (fun _ x => x) (fun _ _ v => v) (.size k : Op T Ctor) w1 = some (Reply.num len, w1) := by
    simp [call, exec, impl, implOf, hk, s]
  have c3 : call (impl sz pitch a arr.length) (fun _ x => x) (fun _ _ v => v) (.get k i : Op T Ctor) w1 = some (Reply.val x, w1) := by
    simp only [call, exec, impl, implOf, bind_apply, M.get_apply, hk, hat, deref]
    simp [w1, hmem]
  have c4 : call (impl sz pitch a arr.length) (fun _ x => x) (fun _ _ v => v) (.toList k : Op T Ctor) w1 = some (Reply.list [], w1) := by
    unfold call exec
    simp only [impl, implOf, bind_apply, M.get_apply, hk, hfin, loop_same, pure_apply, List.map_nil]
  refine ⟨w1, ?_, ?_⟩
  · simp [run, c1, c2, c3, c4]
  · simp [hk, endIt, Iter.diff, s]

/-! ### Concrete cases -/

/-- seven 4-byte integers at address 1000 -/
def demoMem : Nat → Option Nat := fun p => if 1000 ≤ p ∧ p < 1028 ∧ p % 4 = 0 then some ((p - 1000) / 4 + 10) else none

theorem demo_holds : Holds demoMem 1000 4 [10, 11, 12, 13, 14, 15, 16] := by
  intro i hi
  simp at hi
  match i, hi with
  | 0, _ => rfl
  | 1, _ => rfl
  | 2, _ => rfl
  | 3, _ => rfl
  | 4, _ => rfl
  | 5, _ => rfl
  | 6, _ => rfl

def demo : List (Op Nat Ctor) :=
  [.make 0 (.array 1 3), .toList 0, .make 1 (.buf 0 2 4), .sub 2 1 1 (some 2), .set 2 1 99, .toListRev 1, .last 3 0 1, .front 3,
   .make 4 .members, .removePrefix 4 3, .toList 4, .size 7, .sub 5 1 9 none, .empty 5, .make 6 (.array 8 3), .size 6]

example : ∃ y, specRun [10, 11, 12, 13, 14, 15, 16] demo = some ([.unit, .list [11, 14], .unit, .unit, .unit, .list [16, 99, 12, 10],
      .unit, .val 99, .unit, .unit, .list [13, 99, 15, 16], .num 0, .unit, .bool true, .unit, .num 0], y) ∧
    SafeHistory 1000 4 [10, 11, 12, 13, 14, 15, 16] demo ∧ Array 1000 4 := by
  refine ⟨_, rfl, ?_, by decide, by decide⟩
  simp [SafeHistory, View.Spec.SafeRun, View.Spec.Safe, demo, cond, View.Spec.call, View.Spec.start, ctorView, View.Spec.setView,
    View.Spec.slice, View.Spec.len, View.Spec.look, EndFits, Inside, List.range, List.range.loop]

/-- a poly_span history with two access functions: the number itself, and its double -/
example : ∃ y, View.Spec.run (fun k x => if k = 0 then x else 2 * x) (fun k _ r => if k = 0 then r else r / 2) polyCtorView
      [.make 0 (.ptrNum 0 3 0), .make 1 (.ptrNum 1 2 1), .copy 2 1, .set 2 0 50, .toList 0, .toList 1] (View.Spec.start [10, 11, 12]) =
    some ([.unit, .unit, .unit, .unit, .list [10, 25, 12], .list [50, 24]], y) := ⟨_, rfl⟩

/-- the hypotheses of the negative difference: a window of three 4-byte integers -/
example : Valid 1000 4 7 ⟨1, 2, 3, 0⟩ ∧ 2 ≤ (⟨1, 2, 3, 0⟩ : View).step * 4 := by
  refine ⟨⟨by decide, ?_, by decide⟩, by decide⟩
  intro i hi
  simp at hi ⊢
  omega

end Itlib.StrideSpan
