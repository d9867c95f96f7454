import Verif.Span.Spec
import Verif.View.Lemmas

/-! # Properties of `span` (C32) -/
namespace Itlib.Span
open Itlib M View

/-- 2^64 -/
local notation "W" => 18446744073709551616

structure RepSome (a sz n : Nat) (v : View) (s : Span) : Prop where
  step : v.step = 1
  fn : v.fn = 0
  le : v.off + v.len ≤ n
  beg : s.beg = a + v.off * sz
  fin : s.fin = a + v.off * sz + v.len * sz

def Rep (a sz n : Nat) : Option View → Span → Prop
  | some v, s => RepSome a sz n v s
  | none, s => s = null

section
variable {a sz n : Nat}

theorem tdiv_exact (m sz : Nat) (h : 0 < sz) : Int.tdiv ((m * sz : Nat) : Int) sz = m := by
  rw [← Int.ofNat_tdiv, Nat.mul_div_cancel _ h]

theorem size_of (hA : Array a sz n) {b m : Nat} (hm : m * sz < 9223372036854775808) (hb : b + m * sz < W) :
    size sz ⟨b, b + m * sz⟩ = m := by
  have h1 : wsub (b + m * sz) b = m * sz := by rw [wsub_of_le (by omega) hb]; omega
  have h2 : m * 1 ≤ m * sz := Nat.mul_le_mul_left _ hA.szpos
  simp only [size, h1, toSigned_of_lt hm, tdiv_exact _ _ hA.szpos]
  exact ofInt_of_nonneg (by omega)

theorem bounds (hA : Array a sz n) {i : Nat} (h : i ≤ n) : i * sz ≤ n * sz ∧ i ≤ i * sz :=
  ⟨Nat.mul_le_mul_right _ h, by have := Nat.mul_le_mul_left i hA.szpos; omega⟩

theorem size_rep (hA : Array a sz n) {v : Option View} {s : Span} (h : Rep a sz n v s) : size sz s = View.Spec.len v := by
  cases v with
  | none =>
    simp only [Rep] at h; subst h
    have := size_of (b := 0) (m := 0) hA (by omega) (by omega)
    simpa [null, View.Spec.len] using this
  | some v =>
    obtain ⟨b, f⟩ := s
    have hb := h.beg; have hf := h.fin; have hle := h.le
    simp only at hb hf
    subst hb hf
    have h1 := (bounds hA hle).1
    rw [Nat.add_mul] at h1
    have := hA.small; have := hA.fits
    exact size_of hA (by omega) (by omega)

theorem fromSize_rep (hA : Array a sz n) {b m : Nat} (h : b + m ≤ n) : fromSize sz (a + b * sz) m = ⟨a + b * sz, a + b * sz + m * sz⟩ := by
  have h1 := (bounds hA h).1
  rw [Nat.add_mul] at h1
  have := hA.fits
  simp only [fromSize, fromRange, wmul_of_lt (show m * sz < W by omega), wadd_of_lt (show a + b * sz + m * sz < W by omega)]

theorem subspan_rep (hA : Array a sz n) {v : Option View} {s : Span} {off : Nat} {cnt : Option Nat} (h : Rep a sz n v s)
    (hc : (cond a sz).sub v off) :
    Rep a sz n (v.map fun v => View.Spec.slice v off (cnt.getD v.len)) (subspan sz s off cnt) := by
  have hsize := size_rep hA h
  have hsz := hA.szpos
  cases v with
  | none =>
    simp only [Rep] at h; subst h
    simp only [Option.map_none, Rep, subspan]
    simp only [cond] at hc
    split
    · simp [null, fromSize, fromRange, wmul, wadd]
    · rename_i hlt
      rcases hc with rfl | hc
      · have : wsub 0 0 = 0 := by simp [wsub]
        simp [View.Spec.len] at hsize
        simp [hsize, this]
        split <;> simp_all [null, fromSize, fromRange, wmul, wadd]
      · simp [null, wadd, wmul] at hlt
        omega
  | some v =>
    obtain ⟨b, f⟩ := s
    have hst := h.step; have hfn := h.fn; have hb := h.beg; have hf := h.fin; have hle := h.le
    simp only at hb hf
    subst hb hf
    have h1 := (bounds hA hle).1
    rw [Nat.add_mul] at h1
    have := hA.fits
    simp only [View.Spec.len] at hsize
    have hvn : v.len ≤ n := by omega
    have hn := (bounds hA (Nat.le_refl n)).2
    simp only [Option.map_some, Rep, subspan]
    by_cases hoff : off ≤ v.len
    · have h2 : off * sz ≤ v.len * sz := Nat.mul_le_mul_right _ hoff
      have e1 : wmul off sz = off * sz := wmul_of_lt (by omega)
      have e2 : wadd (a + v.off * sz) (off * sz) = a + (v.off + off) * sz := by rw [wadd_of_lt (by omega), Nat.add_mul]; omega
      have hnlt : ¬ (a + v.off * sz + v.len * sz < a + (v.off + off) * sz) := by rw [Nat.add_mul]; omega
      have e3 : wsub v.len off = v.len - off := wsub_of_le hoff (by omega)
      rw [e1, e2, if_neg hnlt, hsize, e3]
      have hcount : (if v.len - off < cnt.getD (W - 1) then v.len - off else cnt.getD (W - 1)) = min (cnt.getD v.len) (v.len - off) := by
        cases cnt with
        | none => simp only [Option.getD_none]; split <;> omega
        | some c => simp only [Option.getD_some]; split <;> omega
      rw [hcount, fromSize_rep hA (by omega)]
      refine ⟨hst, hfn, ?_, ?_, ?_⟩
      · simp only [View.Spec.slice, hst, Nat.mul_one]; omega
      · simp [View.Spec.slice, hst, Nat.min_eq_left hoff]
      · simp [View.Spec.slice, hst, Nat.min_eq_left hoff]
    · simp only [cond] at hc
      rcases hc with hc | hc
      · exact absurd hc hoff
      · have e1 : wadd (a + v.off * sz) (wmul off sz) = (a + (v.off + off) * sz) % W := by
          rw [wadd_wmul, Nat.add_mul]; congr 1; omega
        rw [e1, if_pos (by rw [Nat.add_mul] at hc; omega)]
        have : a + v.off * sz + v.len * sz = a + (v.off + v.len) * sz := by rw [Nat.add_mul]; omega
        rw [this, fromSize_rep hA (by omega)]
        refine ⟨hst, hfn, ?_, ?_, ?_⟩
        · simp only [View.Spec.slice, hst, Nat.mul_one]; omega
        · have : min off v.len = v.len := by omega
          simp [View.Spec.slice, hst, this]
        · have : min off v.len = v.len := by omega
          have h3 : v.len - off = 0 := by omega
          simp [View.Spec.slice, hst, this, h3]

theorem laws (hA : Array a sz n) : Laws (impl sz a n) a sz n ctorView (cond a sz) (Rep a sz n) := by
  have hsz := hA.szpos
  have hfits := hA.fits
  refine ⟨hsz, ?_, rfl, ?_, ?_, ?_, ?_, ?_, ?_, ?_, ?_, ?_, ?_, ?_, ?_, ?_, ?_, ?_, ?_, ?_⟩
  · -- valid
    intro v s h
    have hst := h.step; have hfn := h.fn; have hle := h.le
    refine ⟨by omega, fun i hi => ?_, ?_⟩
    · rw [hst]; omega
    · rw [hst, Nat.mul_one]
      have := (bounds hA hle).1
      omega
  · -- constructors
    intro m v hm _
    cases m with
    | ptrSize off len =>
      simp only [ctorView] at hm
      split at hm
      · rename_i hle
        simp only [Option.some.injEq] at hm; subst hm
        have := fromSize_rep hA hle
        exact ⟨rfl, rfl, hle, by simp [impl, this], by simp [impl, this]⟩
      · simp at hm
    | range off e =>
      simp only [ctorView] at hm
      split at hm
      · rename_i hle
        simp only [Option.some.injEq] at hm; subst hm
        refine ⟨rfl, rfl, by simp only; omega, rfl, ?_⟩
        have : off * sz + (e - off) * sz = e * sz := by rw [← Nat.add_mul]; congr 1; omega
        simp only [impl, fromRange]; omega
      · simp at hm
    | whole =>
      simp only [ctorView, Option.some.injEq] at hm; subst hm
      have := fromSize_rep (b := 0) (m := n) hA (by omega)
      simp only [Nat.zero_mul, Nat.add_zero] at this
      exact ⟨rfl, rfl, by simp, by simp [impl, this], by simp [impl, this]⟩
  · -- subspan
    intro v s off cnt h hc
    exact subspan_rep hA h hc
  · -- first
    intro _
    refine ⟨first sz, rfl, fun v s m h => ?_⟩
    have := subspan_rep (off := 0) (cnt := some m) hA h (by cases v <;> simp [cond])
    exact this
  · -- last
    intro v s m h hm
    refine ⟨last sz, rfl, ?_⟩
    simp only [cond] at hm
    have hsize := size_rep hA h
    have hlt : View.Spec.len v < W := by
      cases v with
      | none => simp [View.Spec.len]
      | some v =>
        have := h.le
        have := (bounds hA (Nat.le_refl n)).2
        simp only [View.Spec.len]; omega
    have e : wsub (size sz s) m = View.Spec.len v - m := by rw [hsize]; exact wsub_of_le hm hlt
    have := subspan_rep (off := View.Spec.len v - m) (cnt := some m) hA h (by
      cases v with
      | none => simp [cond, View.Spec.len]
      | some v => left; simp [View.Spec.len])
    simp only [last, e]
    cases v with
    | none => exact this
    | some v =>
      have heq : View.Spec.slice v (v.len - m) v.len = View.Spec.slice v (v.len - m) m := by
        simp only [View.Spec.len] at hm
        simp only [View.Spec.slice, View.mk.injEq, true_and, and_true]; omega
      simpa [heq, View.Spec.len] using this
  · -- remove_prefix
    intro v s m h hm
    cases v with
    | none =>
      simp only [View.Spec.len] at hm
      have : m = 0 := by omega
      subst this
      simp only [Rep] at h; subst h
      simp [impl, removePrefix, null, wmul, wadd, Rep]
    | some v =>
      obtain ⟨b, f⟩ := s
      have hst := h.step; have hfn := h.fn; have hb := h.beg; have hf := h.fin; have hle := h.le
      simp only at hb hf
      subst hb hf
      simp only [View.Spec.len] at hm
      have h1 := (bounds hA hle).1
      rw [Nat.add_mul] at h1
      have h2 : m * sz ≤ v.len * sz := Nat.mul_le_mul_right _ hm
      have h3 : (v.len - m) * sz + m * sz = v.len * sz := by rw [← Nat.add_mul]; congr 1; omega
      have e : min m v.len = m := by omega
      have e' : min v.len (v.len - m) = v.len - m := by omega
      refine ⟨hst, hfn, ?_, ?_, ?_⟩
      · simp only [View.Spec.slice, hst, e, e']; omega
      · simp only [View.Spec.slice, hst, e, Nat.mul_one, impl, removePrefix, Nat.add_mul]
        rw [wmul_of_lt (by omega), wadd_of_lt (by omega)]; omega
      · simp only [View.Spec.slice, hst, e, e', Nat.mul_one, impl, removePrefix, Nat.add_mul]
        omega
  · -- remove_suffix
    intro v s m h hm
    cases v with
    | none =>
      simp only [View.Spec.len] at hm
      have : m = 0 := by omega
      subst this
      simp only [Rep] at h; subst h
      simp [impl, removeSuffix, null, wmul, wsub, Rep]
    | some v =>
      obtain ⟨b, f⟩ := s
      have hst := h.step; have hfn := h.fn; have hb := h.beg; have hf := h.fin; have hle := h.le
      simp only at hb hf
      subst hb hf
      simp only [View.Spec.len] at hm
      have h1 := (bounds hA hle).1
      rw [Nat.add_mul] at h1
      have h2 : m * sz ≤ v.len * sz := Nat.mul_le_mul_right _ hm
      have h3 : (v.len - m) * sz + m * sz = v.len * sz := by rw [← Nat.add_mul]; congr 1; omega
      have e' : min (v.len - m) (v.len - 0) = v.len - m := by omega
      refine ⟨hst, hfn, ?_, ?_, ?_⟩
      · simp only [View.Spec.slice, hst, e']; omega
      · simp only [View.Spec.slice, Nat.zero_min, Nat.zero_mul, Nat.add_zero, impl, removeSuffix]
      · simp only [View.Spec.slice, Nat.zero_min, Nat.zero_mul, Nat.add_zero, e', impl, removeSuffix]
        rw [wmul_of_lt (by omega), wsub_of_le (by omega) (by omega)]; omega
  · -- at
    intro v s i h hi
    have hst := h.step; have hfn := h.fn; have hb := h.beg; have hle := h.le
    have h1 := (bounds hA (show v.off + i ≤ n by omega)).1
    rw [Nat.add_mul] at h1
    simp only [impl, at', hb, hst, Nat.mul_one, Nat.add_mul]
    rw [wmul_of_lt (by omega), wadd_of_lt (by omega)]; omega
  · -- front
    intro v s h hi
    have hb := h.beg; have hle := h.le
    have h1 := (bounds hA (show v.off ≤ n by omega)).1
    simp only [impl, front, at', hb]
    rw [wmul_of_lt (by omega), wadd_of_lt (by omega)]; omega
  · -- back
    intro v s h hi
    have hst := h.step; have hfn := h.fn; have hb := h.beg; have hle := h.le
    have hsize := size_rep (v := some v) hA h
    simp only [View.Spec.len] at hsize
    have h1 := (bounds hA (show v.off + (v.len - 1) ≤ n by omega)).1
    have hn := (bounds hA (Nat.le_refl n)).2
    rw [Nat.add_mul] at h1
    have e : wsub v.len 1 = v.len - 1 := wsub_of_le (by omega) (by omega)
    simp only [impl, back, at', hb, hsize, e, hst, Nat.mul_one, Nat.add_mul v.off]
    rw [wmul_of_lt (by omega), wadd_of_lt (by omega)]; omega
  · intro v s h; exact size_rep hA h
  · -- empty
    intro v s h
    cases v with
    | none => simp only [Rep] at h; subst h; rfl
    | some v =>
      simp only [impl, empty, h.beg, h.fin, View.Spec.len]
      have : v.len ≤ v.len * sz := by have := Nat.mul_le_mul_left v.len hsz; omega
      by_cases hz : v.len = 0
      · simp [hz]
      · have : ¬ (a + v.off * sz = a + v.off * sz + v.len * sz) := by omega
        simp [hz]
        omega
  · -- bool
    intro v s h
    cases v with
    | none => simp only [Rep] at h; subst h; rfl
    | some v =>
      simp only [impl, bool, h.beg]
      have := hA.pos
      have : a + v.off * sz ≠ 0 := by omega
      simp
      omega
  · intro v s h; exact h.beg
  · intro v s h
    simp only [impl, h.fin, h.step, Nat.mul_one, Nat.add_mul]; omega
  · intro v s h; simp [impl, h.step]
  · intro v s h; simp [impl, h.fn]
  · intro s h; simp only [Rep] at h; subst h; rfl

end

variable {T : Type}

/-- the history on the model, starting from null spans, with the array at address `a` -/
def program (a sz n : Nat) (mem : Nat → Option T) (ops : List (Op T Ctor)) : Option (List (Reply T) × World T Span) :=
  run (impl sz a n) (fun _ x => x) (fun _ _ v => v) ops (start (impl sz a n) mem)

/-- the same on the specification -/
def specRun (arr : List T) (ops : List (Op T Ctor)) : Option (List (Reply T) × View.Spec.State T) :=
  View.Spec.run (fun _ x => x) (fun _ _ v => v) ctorView ops (View.Spec.start arr)

/-- the needs of the code are met throughout -/
def SafeHistory (a sz : Nat) (arr : List T) (ops : List (Op T Ctor)) : Prop :=
  View.Spec.SafeRun (cond a sz) (fun _ x => x) (fun _ _ v => v) ctorView ops (View.Spec.start arr)

theorem program_rel {a sz : Nat} {arr : List T} (hA : Array a sz arr.length) {mem : Nat → Option T}
    (hm : Holds mem a sz arr) {ops : List (Op T Ctor)} {rs : List (Reply T)} {y : View.Spec.State T}
    (hr : specRun arr ops = some (rs, y)) (hs : SafeHistory a sz arr ops) :
    ∃ w, program a sz arr.length mem ops = some (rs, w) ∧ Rel a sz mem (Rep a sz arr.length) y w ∧ y.arr.length = arr.length :=
  run_rel (laws hA) (start_rel (laws hA) hm) rfl hs hr

/-- C32. Every history of constructions, copies, subspans, `first`, `last`, `remove_prefix`, `remove_suffix`, reads, writes
and iterations of any number of spans over one array, anywhere in memory, behaves as windows on a list: every view denotes
exactly the slice it should, writes through one are seen by the others, and memory outside of the array is not touched.
Missing: offsets that wrap around the address space and `last` of more elements than there are (see the defect theorems). -/
theorem C32_span_history_partial {a sz : Nat} {arr : List T} (hA : Array a sz arr.length) {mem : Nat → Option T}
    (hm : Holds mem a sz arr) (ops : List (Op T Ctor)) (rs : List (Reply T)) (y : View.Spec.State T)
    (hr : specRun arr ops = some (rs, y)) (hs : SafeHistory a sz arr ops) :
    ∃ w, program a sz arr.length mem ops = some (rs, w) ∧ Holds w.mem a sz y.arr ∧
      ∀ p, (∀ i, i < arr.length → p ≠ a + i * sz) → w.mem p = mem p := by
  obtain ⟨w, h, hrel, hl⟩ := program_rel hA hm hr hs
  exact ⟨w, h, hrel.mem, fun p hp => hrel.frame p (by rw [hl]; exact hp)⟩

/-- C32. After every such history, `as_bytes` and `as_writable_bytes` of every non-null span cover exactly the bytes of its
elements, and `size_bytes` counts them. -/
theorem C32_as_bytes {a sz : Nat} {arr : List T} (hA : Array a sz arr.length) {mem : Nat → Option T}
    (hm : Holds mem a sz arr) (ops : List (Op T Ctor)) (rs : List (Reply T)) (y : View.Spec.State T)
    (hr : specRun arr ops = some (rs, y)) (hs : SafeHistory a sz arr ops) (k : Nat) (v : View) (hv : y.views k = some v) :
    ∃ w, program a sz arr.length mem ops = some (rs, w) ∧ sizeBytes sz (w.views k) = v.len * sz ∧
      ∀ p, ((asBytes sz (w.views k)).beg ≤ p ∧ p < (asBytes sz (w.views k)).fin) ↔
        ∃ i j, i < v.len ∧ j < sz ∧ p = a + (v.off + i) * sz + j := by
  obtain ⟨w, h, hrel, hl⟩ := program_rel hA hm hr hs
  refine ⟨w, h, ?_⟩
  have hrep := hrel.views k
  rw [hv] at hrep
  have hsize := size_rep hA hrep
  simp only [View.Spec.len] at hsize
  have h1 := (bounds hA hrep.le).1
  rw [Nat.add_mul] at h1
  have hfits := hA.fits
  have hsz := hA.szpos
  have e1 : sizeBytes sz (w.views k) = v.len * sz := by simp only [sizeBytes, hsize]; exact wmul_of_lt (by omega)
  refine ⟨e1, fun p => ?_⟩
  have e2 : (asBytes sz (w.views k)).beg = a + v.off * sz := by simp [asBytes, fromSize, fromRange, hrep.beg]
  have e3 : (asBytes sz (w.views k)).fin = a + v.off * sz + v.len * sz := by
    simp only [asBytes, fromSize, fromRange, hrep.beg, e1]
    rw [wmul_of_lt (by omega), wadd_of_lt (by omega)]; omega
  rw [e2, e3]
  constructor
  · rintro ⟨hlo, hhi⟩
    refine ⟨(p - (a + v.off * sz)) / sz, (p - (a + v.off * sz)) % sz, ?_, Nat.mod_lt _ hsz, ?_⟩
    · rw [Nat.div_lt_iff_lt_mul hsz]; omega
    · have := Nat.div_add_mod (p - (a + v.off * sz)) sz
      rw [Nat.add_mul, Nat.mul_comm (_ / _)]
      omega
  · rintro ⟨i, j, hi, hj, rfl⟩
    have : (i + 1) * sz ≤ v.len * sz := Nat.mul_le_mul_right _ hi
    rw [Nat.add_mul, Nat.one_mul] at this
    rw [Nat.add_mul]
    constructor <;> omega

/-- C32, defect. After every such history, `subspan` of a span with an offset beyond its end, but so large that the address
wraps around to one not after the span's end, gives a nonempty span. -/
theorem C32_subspan_wrap_defect {a sz : Nat} {arr : List T} (hA : Array a sz arr.length) {mem : Nat → Option T}
    (hm : Holds mem a sz arr) (ops : List (Op T Ctor)) (rs : List (Reply T)) (y : View.Spec.State T)
    (hr : specRun arr ops = some (rs, y)) (hs : SafeHistory a sz arr ops) (j k : Nat) (v : View) (hv : y.views j = some v)
    (off : Nat) (hoff : v.len < off) (hW : off < W) (hsz : sz < 9223372036854775808)
    (hwrap : (a + (v.off + off) * sz) % W ≤ a + (v.off + v.len) * sz) :
    ∃ w, program a sz arr.length mem (ops ++ [.sub k j off (some 1), .size k]) = some (rs ++ [.unit, .num 1], w) := by
  obtain ⟨w, h, hrel, hl⟩ := program_rel hA hm hr hs
  have hrep := hrel.views j
  rw [hv] at hrep
  have hsize := size_rep hA hrep
  simp only [View.Spec.len] at hsize
  have h1 := (bounds hA hrep.le).1
  rw [Nat.add_mul] at h1
  have hfits := hA.fits
  have hspos := hA.szpos
  have e1 : wadd (w.views j).beg (wmul off sz) = (a + (v.off + off) * sz) % W := by
    rw [wadd_wmul, hrep.beg, Nat.add_mul]; congr 1; omega
  have e2 : wsub v.len off = v.len + W - off := wsub_of_lt hoff hW
  have hsub : size sz (subspan sz (w.views j) off (some 1)) = 1 := by
    have hnlt : ¬ ((w.views j).fin < (a + (v.off + off) * sz) % W) := by rw [hrep.fin]; rw [Nat.add_mul v.off v.len] at hwrap; omega
    simp only [subspan, e1, if_neg hnlt, hsize, e2, Option.getD_some]
    have : ¬ (v.len + W - off < 1) := by omega
    rw [if_neg this]
    generalize (a + (v.off + off) * sz) % W = p at *
    simp only [fromSize, fromRange]
    rw [wmul_of_lt (by omega)]
    have hd : wsub (wadd p (1 * sz)) p = 1 * sz := by simp only [wsub, wadd]; omega
    simp only [size, hd, toSigned_of_lt (show 1 * sz < 9223372036854775808 by omega), tdiv_exact _ _ hspos]
    exact ofInt_of_nonneg (by omega)
  unfold program at h ⊢
  rw [run_append, h]
  exact ⟨{ w with views := Function.update w.views k (subspan sz (w.views j) off (some 1)) }, by
    simp [run, call, exec, View.setView, impl, hsub]⟩

/-- C32, defect. After every such history, `last(n)` of a span with fewer elements, where there are that many bytes of address
space before it, gives a span of `n` elements that starts before the original. -/
theorem C32_last_too_many_defect {a sz : Nat} {arr : List T} (hA : Array a sz arr.length) {mem : Nat → Option T}
    (hm : Holds mem a sz arr) (ops : List (Op T Ctor)) (rs : List (Reply T)) (y : View.Spec.State T)
    (hr : specRun arr ops = some (rs, y)) (hs : SafeHistory a sz arr ops) (j k : Nat) (v : View) (hv : y.views j = some v)
    (m : Nat) (hm' : v.len < m) (hbelow : (m - v.len) * sz ≤ a + v.off * sz) (hsmall : m * sz < 9223372036854775808) :
    ∃ w, program a sz arr.length mem (ops ++ [.last k j m, .size k]) = some (rs ++ [.unit, .num m], w) ∧
      (w.views k).beg + (m - v.len) * sz = a + v.off * sz := by
  obtain ⟨w, h, hrel, hl⟩ := program_rel hA hm hr hs
  have hrep := hrel.views j
  rw [hv] at hrep
  have hsize := size_rep hA hrep
  simp only [View.Spec.len] at hsize
  have h1 := (bounds hA hrep.le).1
  rw [Nat.add_mul] at h1
  have hfits := hA.fits
  have hspos := hA.szpos
  have hmsz : m ≤ m * sz := by have := Nat.mul_le_mul_left m hspos; omega
  have e2 : wsub v.len m = v.len + W - m := wsub_of_lt hm' (by omega)
  have hmv : (m - v.len) * sz + v.len * sz = m * sz := by rw [← Nat.add_mul]; congr 1; omega
  have hmul : (v.len + W - m) * sz + (m - v.len) * sz = W * sz := by rw [← Nat.add_mul]; congr 1; omega
  have e1 : wadd (w.views j).beg (wmul (v.len + W - m) sz) = a + v.off * sz - (m - v.len) * sz := by
    rw [wadd_wmul, hrep.beg]
    have : a + v.off * sz + (v.len + W - m) * sz = (a + v.off * sz - (m - v.len) * sz) + W * sz := by omega
    rw [this, Nat.add_mul_mod_self_left]
    exact Nat.mod_eq_of_lt (by omega)
  have e3 : wsub v.len (v.len + W - m) = m := by rw [wsub_of_lt (by omega) (by omega)]; omega
  have hlast : last sz (w.views j) m = ⟨a + v.off * sz - (m - v.len) * sz, a + v.off * sz - (m - v.len) * sz + m * sz⟩ := by
    have hnlt : ¬ ((w.views j).fin < a + v.off * sz - (m - v.len) * sz) := by rw [hrep.fin]; omega
    simp only [last, subspan, hsize, e2, e1, if_neg hnlt, e3, Option.getD_some, Nat.lt_irrefl, if_false]
    simp only [fromSize, fromRange]
    rw [wmul_of_lt (by omega), wadd_of_lt (by omega)]
  have hls : size sz (last sz (w.views j) m) = m := by rw [hlast]; exact size_of hA hsmall (by omega)
  unfold program at h ⊢
  rw [run_append, h]
  refine ⟨{ w with views := Function.update w.views k (last sz (w.views j) m) }, ?_, ?_⟩
  · simp [run, call, exec, View.setView, impl, hls]
  · simp only [Function.update_self, hlast]; omega

/-! ### Concrete cases -/

/-- five 4-byte integers at address 1000 -/
def demoMem : Nat → Option Nat := fun p => if 1000 ≤ p ∧ p < 1020 ∧ p % 4 = 0 then some ((p - 1000) / 4 + 10) else none

theorem demo_array : Array 1000 4 [10, 11, 12, 13, 14].length := ⟨by decide, by decide, by decide, by decide⟩

theorem demo_holds : Holds demoMem 1000 4 [10, 11, 12, 13, 14] := by
  intro i hi
  simp at hi
  match i, hi with
  | 0, _ => rfl
  | 1, _ => rfl
  | 2, _ => rfl
  | 3, _ => rfl
  | 4, _ => rfl

def demo : List (Op Nat Ctor) :=
  [.make 0 .whole, .sub 1 0 1 (some 3), .last 2 1 2, .set 2 0 99, .toList 0, .toListRev 1, .sub 3 0 7 none, .size 3, .bool 3,
   .removePrefix 0 2, .removeSuffix 0 1, .front 0, .back 0, .bool 5, .toList 0]

example : ∃ y, specRun [10, 11, 12, 13, 14] demo = some ([.unit, .unit, .unit, .unit, .list [10, 11, 99, 13, 14], .list [13, 99, 11],
      .unit, .num 0, .bool true, .unit, .unit, .val 99, .val 13, .bool false, .list [99, 13]], y) ∧
    SafeHistory 1000 4 [10, 11, 12, 13, 14] demo := by
  refine ⟨_, rfl, ?_⟩
  simp [SafeHistory, View.Spec.SafeRun, View.Spec.Safe, demo, cond, View.Spec.call, View.Spec.start, ctorView, View.Spec.setView,
    View.Spec.slice, View.Spec.len, View.Spec.look]

/-- the hypotheses of the wrap-around defect: `subspan(size_t(-1))`-like offsets -/
example : ∃ rs y v, specRun [10, 11, 12, 13, 14] [.make 0 .whole] = some (rs, y) ∧ y.views 0 = some v ∧
    v.len < 18446744073709551615 ∧ (1000 + (v.off + 18446744073709551615) * 4) % W ≤ 1000 + (v.off + v.len) * 4 ∧
    SafeHistory 1000 4 [10, 11, 12, 13, 14] [.make 0 .whole] := by
  refine ⟨_, _, ⟨0, 1, 5, 0⟩, rfl, rfl, by decide, by decide, ?_⟩
  simp [SafeHistory, View.Spec.SafeRun, View.Spec.Safe, cond]

/-- the hypotheses of the second defect: the last 7 of 5 elements -/
example : ∃ rs y v, specRun [10, 11, 12, 13, 14] [.make 0 .whole] = some (rs, y) ∧ y.views 0 = some v ∧
    v.len < 7 ∧ (7 - v.len) * 4 ≤ 1000 + v.off * 4 ∧ SafeHistory 1000 4 [10, 11, 12, 13, 14] [.make 0 .whole] := by
  refine ⟨_, _, ⟨0, 1, 5, 0⟩, rfl, rfl, by decide, by decide, ?_⟩
  simp [SafeHistory, View.Spec.SafeRun, View.Spec.Safe, cond]

end Itlib.Span
