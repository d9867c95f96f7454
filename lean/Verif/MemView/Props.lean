import Verif.MemView.Spec
import Verif.View.Lemmas

/-! # Properties of `memory_view` (C34) -/
namespace Itlib.MemView
open Itlib M View

/-- 2^64 -/
local notation "W" => 18446744073709551616

structure RepSome (a sz n : Nat) (v : View) (s : MView) : Prop where
  step : v.step = 1
  fn : v.fn = 0
  le : v.off + v.len ≤ n
  ptr : s.ptr = a + v.off * sz
  size : s.size = v.len

def Rep (a sz n : Nat) : Option View → MView → Prop
  | some v, s => RepSome a sz n v s
  | none, s => s = null

section
variable {a sz n : Nat}

theorem bounds (hA : Array a sz n) {i : Nat} (h : i ≤ n) : i * sz ≤ n * sz ∧ i ≤ i * sz :=
  ⟨Nat.mul_le_mul_right _ h, by have := Nat.mul_le_mul_left i hA.szpos; omega⟩

theorem addr (hA : Array a sz n) {b m : Nat} (h : b + m ≤ n) : wadd (a + b * sz) (wmul m sz) = a + (b + m) * sz := by
  have h1 := (bounds hA h).1
  rw [Nat.add_mul] at h1
  have := hA.fits
  rw [wmul_of_lt (by omega), wadd_of_lt (by omega), Nat.add_mul]; omega

theorem laws (hA : Array a sz n) : Laws (impl sz a n) a sz n ctorView cond (Rep a sz n) := by
  have hsz := hA.szpos
  have hfits := hA.fits
  have hn := (bounds hA (Nat.le_refl n)).2
  refine ⟨hsz, ?_, rfl, ?_, ?_, ?_, ?_, ?_, ?_, ?_, ?_, ?_, ?_, ?_, ?_, ?_, ?_, ?_, ?_, ?_⟩
  · -- valid
    intro v s h
    have hst := h.step; have hle := h.le
    refine ⟨by omega, fun i hi => ?_, ?_⟩
    · rw [hst]; omega
    · rw [hst, Nat.mul_one]
      have := (bounds hA hle).1
      omega
  · -- constructors
    intro m v hm _
    cases m with
    | ptrSize off len =>
      simp only [ctorView] at hm
      split at hm
      · simp only [Option.some.injEq] at hm; subst hm
        exact ⟨rfl, rfl, by assumption, rfl, rfl⟩
      · simp at hm
    | container off =>
      simp only [ctorView] at hm
      split at hm
      · rename_i hle
        simp only [Option.some.injEq] at hm; subst hm
        refine ⟨rfl, rfl, by simp only; omega, ?_, ?_⟩
        · have := addr (b := 0) (m := off) hA (by omega)
          simpa [impl, fromSize] using this
        · exact wsub_of_le hle (by omega)
      · simp at hm
  · -- slice
    intro v s off cnt h _
    cases v with
    | none =>
      simp only [Rep] at h; subst h
      simp only [Option.map_none, Rep, impl, slice, null]
      split
      · simp [fromSize, wadd, wmul]
      · have : off = 0 := by omega
        subst this
        simp [fromSize, wadd, wmul, wsub]
    | some v =>
      obtain ⟨p, m⟩ := s
      have hst := h.step; have hfn := h.fn; have hb := h.ptr; have hm := h.size; have hle := h.le
      simp only at hb hm
      subst hb hm
      simp only [Option.map_some, Rep, impl, slice]
      split
      · rename_i hlt
        have e : min off v.len = v.len := by omega
        have e' : v.len - off = 0 := by omega
        exact ⟨hst, hfn, by simp only [View.Spec.slice, hst, e, e']; omega,
          by simp only [View.Spec.slice, hst, e, fromSize, addr hA hle, Nat.mul_one],
          by simp [View.Spec.slice, e', fromSize]⟩
      · rename_i hlt
        have e : min off v.len = off := by omega
        have e3 : wsub v.len off = v.len - off := wsub_of_le (by omega) (by omega)
        refine ⟨hst, hfn, ?_, ?_, ?_⟩
        · simp only [View.Spec.slice, hst, e]; omega
        · simp only [View.Spec.slice, hst, e, fromSize, Nat.mul_one]
          exact addr hA (by omega)
        · simp only [View.Spec.slice, fromSize, e3]
          cases cnt with
          | none => simp only [Option.getD_none]; split <;> omega
          | some c => simp only [Option.getD_some]; split <;> omega
  · intro h; exact h.elim
  · intro v s m _ h; exact h.elim
  · -- remove_prefix
    intro v s m h hm
    cases v with
    | none =>
      simp only [View.Spec.len] at hm
      have : m = 0 := by omega
      subst this
      simp only [Rep] at h; subst h
      simp [impl, removePrefix, null, wmul, wadd, wsub, Rep]
    | some v =>
      simp only [View.Spec.len] at hm
      have hle := h.le
      have e : min m v.len = m := by omega
      have e' : min v.len (v.len - m) = v.len - m := by omega
      refine ⟨h.step, h.fn, ?_, ?_, ?_⟩
      · simp only [View.Spec.slice, h.step, e, e']; omega
      · simp only [View.Spec.slice, h.step, e, impl, removePrefix, h.ptr, Nat.mul_one]
        exact addr hA (by omega)
      · simp only [View.Spec.slice, e', impl, removePrefix, h.size]
        exact wsub_of_le hm (by omega)
  · -- remove_suffix
    intro v s m h hm
    cases v with
    | none =>
      simp only [View.Spec.len] at hm
      have : m = 0 := by omega
      subst this
      simp only [Rep] at h; subst h
      simp [impl, removeSuffix, null, wsub, Rep]
    | some v =>
      simp only [View.Spec.len] at hm
      have hle := h.le
      have e' : min (v.len - m) (v.len - 0) = v.len - m := by omega
      refine ⟨h.step, h.fn, ?_, ?_, ?_⟩
      · simp only [View.Spec.slice, h.step, e']; omega
      · simp only [View.Spec.slice, Nat.zero_min, Nat.zero_mul, Nat.add_zero, impl, removeSuffix, h.ptr]
      · simp only [View.Spec.slice, e', impl, removeSuffix, h.size]
        exact wsub_of_le hm (by omega)
  · intro v s i h hi
    have hle := h.le
    simp only [impl, at', h.ptr, h.step, Nat.mul_one]
    exact addr hA (by omega)
  · intro v s h hi
    have hle := h.le
    have := addr (b := v.off) (m := 0) hA (by omega)
    simpa only [impl, front, at', h.ptr, Nat.add_zero] using this
  · intro v s h hi
    have hle := h.le
    simp only [impl, back, at', h.ptr, h.size, h.step, Nat.mul_one]
    rw [wsub_of_le (by omega) (by omega)]
    exact addr hA (by omega)
  · intro v s h
    cases v with
    | none => simp only [Rep] at h; subst h; rfl
    | some v => exact h.size
  · intro v s h
    cases v with
    | none => simp only [Rep] at h; subst h; rfl
    | some v => simp [impl, empty, h.size, View.Spec.len]
  · intro v s h
    cases v with
    | none => simp only [Rep] at h; subst h; rfl
    | some v =>
      have := hA.pos
      simp only [impl, bool, h.ptr]
      simp
      omega
  · intro v s h; exact h.ptr
  · intro v s h
    simp only [impl, fin, h.ptr, h.size, h.step, Nat.mul_one]
    exact addr hA h.le
  · intro v s h; simp [impl, h.step]
  · intro v s h; simp [impl, h.fn]
  · intro s h; simp only [Rep] at h; subst h; simp [impl, fin, null, wadd, wmul]

end

variable {T : Type}

/-- the history on the model, starting from null views, with the array at address `a` -/
def program (a sz n : Nat) (mem : Nat → Option T) (ops : List (Op T Ctor)) : Option (List (Reply T) × World T MView) :=
  run (impl sz a n) (fun _ x => x) (fun _ _ v => v) ops (start (impl sz a n) mem)

/-- the same on the specification -/
def specRun (arr : List T) (ops : List (Op T Ctor)) : Option (List (Reply T) × View.Spec.State T) :=
  View.Spec.run (fun _ x => x) (fun _ _ v => v) ctorView ops (View.Spec.start arr)

/-- the history uses functions of the class -/
def Members : List (Op T Ctor) → Prop := fun ops => ∀ op ∈ ops, match op with
  | .first _ _ _ => False
  | .last _ _ _ => False
  | _ => True

theorem members_safe {ops : List (Op T Ctor)} (h : Members ops) (y : View.Spec.State T) :
    View.Spec.SafeRun cond (fun _ x => x) (fun _ _ v => v) ctorView ops y := by
  induction ops generalizing y with
  | nil => trivial
  | cons op ops ih =>
    refine ⟨?_, fun _ _ _ => ih (fun o ho => h o (by simp [ho])) _⟩
    have := h op (by simp)
    cases op <;> simp_all [View.Spec.Safe, cond]

/-- C34. Every history of constructions, copies, slices with any offset and count, `remove_prefix`, `remove_suffix`, reads,
writes and iterations of any number of memory views over one array, anywhere in memory, behaves as windows on a list, and
memory outside of the array is not touched. -/
theorem C34_memory_view_history {a sz : Nat} {arr : List T} (hA : Array a sz arr.length) {mem : Nat → Option T}
    (hm : Holds mem a sz arr) (ops : List (Op T Ctor)) (hops : Members ops) (rs : List (Reply T)) (y : View.Spec.State T)
    (hr : specRun arr ops = some (rs, y)) :
    ∃ w, program a sz arr.length mem ops = some (rs, w) ∧ Holds w.mem a sz y.arr ∧
      ∀ p, (∀ i, i < arr.length → p ≠ a + i * sz) → w.mem p = mem p := by
  obtain ⟨w, h, hrel, hl⟩ := run_rel (laws hA) (start_rel (laws hA) hm) rfl (members_safe hops _) hr
  exact ⟨w, h, hrel.mem, fun p hp => hrel.frame p (by rw [hl]; exact hp)⟩

/-- C34. After every such history, `reset(size)` of a non-null view to a size that stays in the array makes it the view of
that size at the same start. -/
theorem C34_reset_size {a sz : Nat} {arr : List T} (hA : Array a sz arr.length) {mem : Nat → Option T}
    (hm : Holds mem a sz arr) (ops : List (Op T Ctor)) (hops : Members ops) (rs : List (Reply T)) (y : View.Spec.State T)
    (hr : specRun arr ops = some (rs, y)) (k : Nat) (v : View) (hv : y.views k = some v) (m : Nat) (hle : v.off + m ≤ arr.length) :
    ∃ w, program a sz arr.length mem ops = some (rs, w) ∧ (resetSize (w.views k) m).size = m ∧
      ∀ i x, i < m → arr[v.off + i]? = some x →
        at' sz (resetSize (w.views k) m) i = a + (v.off + i) * sz ∧
        w.mem (at' sz (resetSize (w.views k) m) i) = y.arr[v.off + i]? := by
  obtain ⟨w, h, hrel, hl⟩ := run_rel (laws hA) (start_rel (laws hA) hm) rfl (members_safe hops _) hr
  refine ⟨w, h, rfl, fun i x hi hx => ?_⟩
  have hrep := hrel.views k
  rw [hv] at hrep
  have e : at' sz (resetSize (w.views k) m) i = a + (v.off + i) * sz := by
    simp only [at', resetSize, hrep.ptr]
    exact addr hA (by omega)
  refine ⟨e, ?_⟩
  have hlt : v.off + i < y.arr.length := by rw [hl]; omega
  rw [e, hrel.mem _ hlt, List.getElem?_eq_getElem hlt]

/-! ### Concrete cases -/

/-- five 4-byte integers at address 1000 -/
def demoMem : Nat → Option Nat := fun p => if 1000 ≤ p ∧ p < 1020 ∧ p % 4 = 0 then some ((p - 1000) / 4 + 10) else none

theorem demo_array : Array 1000 4 [10, 11, 12, 13, 14].length := ⟨by decide, by decide, by decide⟩

theorem demo_holds : Holds demoMem 1000 4 [10, 11, 12, 13, 14] := by
  intro i hi
  simp at hi
  match i, hi with
  | 0, _ => rfl
  | 1, _ => rfl
  | 2, _ => rfl
  | 3, _ => rfl
  | 4, _ => rfl

def demo : List (Op Nat Ctor) :=
  [.make 0 (.container 1), .sub 1 0 1 (some 2), .set 1 0 99, .toList 0, .toListRev 1, .sub 3 0 18446744073709551615 none, .size 3,
   .bool 3, .removePrefix 0 2, .removeSuffix 0 1, .front 0, .bool 5, .sub 5 5 3 none, .toList 5]

example : ∃ y, specRun [10, 11, 12, 13, 14] demo = some ([.unit, .unit, .unit, .list [11, 99, 13, 14], .list [13, 99],
      .unit, .num 0, .bool true, .unit, .unit, .val 13, .bool false, .unit, .list []], y) ∧ Members demo := by
  refine ⟨_, rfl, ?_⟩
  simp [Members, demo]

end Itlib.MemView
