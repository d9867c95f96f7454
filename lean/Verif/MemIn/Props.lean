import Verif.MemIn.Spec
import Verif.Core.Tac

/-! # Properties of `mem_istreambuf` (C30) -/
namespace Itlib.MemIn
open Itlib M
variable {C : Type} [DecidableEq C]

/-- the buffer is at the specification's position of the same text -/
structure Rel (y : Spec.Text C) (b : Buf C) : Prop where
  text : b.range.chars = y.text
  addr : b.range.addr = y.addr
  off : b.off = y.pos
  le : y.pos ≤ y.text.length

omit [DecidableEq C] in
theorem setg_ok {b : Buf C} {o : Int} (h0 : 0 ≤ o) (h1 : o ≤ b.range.chars.length) :
    setg o b = .ok () { b with off := o.toNat } := by
  simp [setg, h0, h1]

theorem call_step (sz : Nat) (hsz : 0 < sz) {op : Op C} {y y' : Spec.Text C} {b : Buf C} {r} (h : Rel y b)
    (hs : Spec.Safe sz op y) (hc : Spec.call op y = some (r, y')) :
    ∃ b', call sz op b = some (r, b') ∧ Rel y' b' := by
  obtain ⟨h1, h2, h3, h4⟩ := h
  cases op with
  | reset r =>
    simp only [Spec.call, Option.some.injEq, Prod.mk.injEq] at hc
    obtain ⟨rfl, rfl⟩ := hc
    exact ⟨_, by simp [call, exec, reset]; rfl, rfl, rfl, rfl, by simp⟩
  | default =>
    simp only [Spec.call, Option.some.injEq, Prod.mk.injEq] at hc
    obtain ⟨rfl, rfl⟩ := hc
    exact ⟨_, by simp [call, exec, defaultCtor]; rfl, rfl, rfl, rfl, by simp [Spec.init]⟩
  | read n =>
    simp only [Spec.call, Option.some.injEq, Prod.mk.injEq] at hc
    obtain ⟨rfl, rfl⟩ := hc
    simp only [Spec.Safe] at hs
    have hmod : (b.gptr sz + n * sz) % 18446744073709551616 = y.addr + (y.pos + n) * sz := by
      rw [Nat.mod_eq_of_lt]
      · simp only [Buf.gptr, h2, h3, Nat.add_mul]; omega
      · simp only [Buf.gptr, h2, h3, Nat.add_mul] at hs ⊢; omega
    have hcmp : b.egptr sz < (b.gptr sz + n * sz) % 18446744073709551616 ↔ y.text.length < y.pos + n := by
      rw [hmod]
      simp only [Buf.egptr, h1, h2]
      constructor
      · intro hlt
        by_contra hge
        have := Nat.mul_le_mul_right sz (Nat.le_of_not_lt hge)
        omega
      · intro hlt
        have := Nat.mul_lt_mul_of_pos_right hlt hsz
        omega
    refine ⟨{ b with off := min (y.pos + n) y.text.length }, ?_, h1, h2, rfl, Nat.min_le_right _ _⟩
    simp only [call, exec, xsgetn, bind_apply, get_apply]
    by_cases hlt : y.text.length < y.pos + n
    · simp only [hcmp.2 hlt, if_true, copyFrom, bind_apply, get_apply, h3, h1]
      rw [if_pos (by omega)]
      simp only [pure_apply]
      rw [setg_ok (by omega) (by rw [h1]; omega)]
      simp only
      rw [List.take_of_length_le (by simp), List.take_of_length_le (by simp; omega)]
      rw [show ((y.pos : Int) + ((y.text.length - y.pos : Nat) : Int)).toNat = min (y.pos + n) y.text.length by omega]
    · have hnlt : ¬ b.egptr sz < (b.gptr sz + n * sz) % 18446744073709551616 := fun hc => hlt (hcmp.1 hc)
      simp only [hnlt, if_false, copyFrom, bind_apply, get_apply, h3, h1]
      rw [if_pos (by omega)]
      simp only [pure_apply]
      rw [setg_ok (by omega) (by rw [h1]; omega)]
      simp only
      rw [show ((y.pos : Int) + (n : Int)).toNat = min (y.pos + n) y.text.length by omega]
  | peek =>
    simp only [Spec.call, Option.some.injEq, Prod.mk.injEq] at hc
    obtain ⟨rfl, rfl⟩ := hc
    refine ⟨b, ?_, h1, h2, h3, h4⟩
    by_cases hlt : y.pos < y.text.length
    · simp [call, exec, sgetc, charAt, h3, h1, hlt]
    · simp [call, exec, sgetc, h3, h1, hlt]
  | get =>
    simp only [Spec.call, Option.some.injEq, Prod.mk.injEq] at hc
    obtain ⟨rfl, rfl⟩ := hc
    refine ⟨{ b with off := min (y.pos + 1) y.text.length }, ?_, h1, h2, rfl, Nat.min_le_right _ _⟩
    by_cases hlt : y.pos < y.text.length
    · simp only [call, exec, sbumpc, charAt, bind_apply, get_apply, h3, h1, hlt, if_true]
      simp only [List.getElem?_eq_getElem hlt, pure_apply]
      rw [setg_ok (by omega) (by rw [h1]; omega)]
      simp only
      rw [show ((y.pos : Int) + 1).toNat = min (y.pos + 1) y.text.length by omega]
    · simp only [call, exec, sbumpc, bind_apply, get_apply, h3, h1, hlt, if_false, pure_apply]
      rw [List.getElem?_eq_none (by omega)]
      rw [show min (y.pos + 1) y.text.length = b.off by omega]
  | putback c =>
    simp only [Spec.call] at hc
    by_cases hp : 0 < y.pos
    · have hlt : y.pos - 1 < y.text.length := by omega
      by_cases hq : y.text[y.pos - 1]? = some c
      · simp only [hp, hq, and_self, if_true, Option.some.injEq, Prod.mk.injEq] at hc
        obtain ⟨rfl, rfl⟩ := hc
        refine ⟨{ b with off := y.pos - 1 }, ?_, h1, h2, rfl, by simp; omega⟩
        simp only [call, exec, sputbackc, charAt, bind_apply, get_apply, h3, h1, hp, if_true, hq, pure_apply]
        rw [setg_ok (by omega) (by rw [h1]; omega)]
        simp only
        rw [show ((y.pos : Int) - 1).toNat = y.pos - 1 by omega]
      · simp only [hp, hq, and_false, if_false, Option.some.injEq, Prod.mk.injEq] at hc
        obtain ⟨rfl, rfl⟩ := hc
        refine ⟨b, ?_, h1, h2, h3, h4⟩
        rw [List.getElem?_eq_getElem hlt] at hq
        have hne : ¬ c = y.text[y.pos - 1] := fun he => hq (by rw [← he])
        simp [call, exec, sputbackc, charAt, h3, h1, hp, List.getElem?_eq_getElem hlt, hne]
    · simp only [hp, false_and, if_false, Option.some.injEq, Prod.mk.injEq] at hc
      obtain ⟨rfl, rfl⟩ := hc
      exact ⟨b, by simp [call, exec, sputbackc, h3, hp], h1, h2, h3, h4⟩
  | seek off way =>
    simp only [Spec.call] at hc
    split at hc
    · rename_i ht
      simp only [Option.some.injEq, Prod.mk.injEq] at hc
      obtain ⟨rfl, rfl⟩ := hc
      refine ⟨{ b with off := (y.target off way).toNat }, ?_, h1, h2, rfl, by simp; omega⟩
      have hg := setg_ok (b := b) ht.1 (by rw [h1]; exact ht.2)
      cases way with
      | beg => simp only [Spec.Text.target] at hg ⊢; simp [call, exec, seekoff, seekpos, hg]
      | cur => simp only [Spec.Text.target] at hg ⊢; simp [call, exec, seekoff, seekpos, goff, h3, hg]
      | «end» => simp only [Spec.Text.target] at hg ⊢; simp [call, exec, seekoff, seekpos, size, h1, hg]
    · simp at hc
  | tell =>
    simp only [Spec.call, Option.some.injEq, Prod.mk.injEq] at hc
    obtain ⟨rfl, rfl⟩ := hc
    exact ⟨b, by simp [call, exec, goff, h3], h1, h2, h3, h4⟩
  | size =>
    simp only [Spec.call, Option.some.injEq, Prod.mk.injEq] at hc
    obtain ⟨rfl, rfl⟩ := hc
    exact ⟨b, by simp [call, exec, size, h1], h1, h2, h3, h4⟩

/-- C30. Every history of reads, character reads, put-backs, seeks inside the text and resets gives the slices of the text,
short only at its end; reading outside of the range is undefined behaviour in the model, so it does not happen. The amounts
asked for must not wrap around the address space. -/
theorem C30_istream_history_partial (sz : Nat) (hsz : 0 < sz) (ops : List (Op C)) (rs : List (Reply C)) (y : Spec.Text C)
    (hr : Spec.run ops Spec.init = some (rs, y)) (hs : Spec.SafeRun sz ops Spec.init) (b0 : Buf C) :
    ∃ b, run sz (.default :: ops) b0 = some (.unit :: rs, b) ∧ b.range.chars = y.text ∧ b.off = y.pos ∧
      b.off ≤ b.range.chars.length := by
  have key : ∀ (ops : List (Op C)) (y y' : Spec.Text C) (b : Buf C) rs, Rel y b → Spec.SafeRun sz ops y →
      Spec.run ops y = some (rs, y') → ∃ b', run sz ops b = some (rs, b') ∧ Rel y' b' := by
    intro ops
    induction ops with
    | nil =>
      intro y y' b rs h _ hc
      simp only [Spec.run, Option.some.injEq, Prod.mk.injEq] at hc
      obtain ⟨rfl, rfl⟩ := hc
      exact ⟨b, rfl, h⟩
    | cons op ops ih =>
      intro y y' b rs h hs hc
      simp only [Spec.run, Option.bind_eq_bind, Option.bind_eq_some_iff, Option.some.injEq] at hc
      obtain ⟨⟨r, y1⟩, h1, ⟨rs', y2⟩, h2, h3⟩ := hc
      simp only [Prod.mk.injEq] at h3
      obtain ⟨rfl, rfl⟩ := h3
      obtain ⟨b1, e1, hr1⟩ := call_step sz hsz h hs.1 h1
      obtain ⟨b2, e2, hr2⟩ := ih _ _ _ _ hr1 (hs.2 _ _ h1) h2
      exact ⟨b2, by simp [run, e1, e2], hr2⟩
  obtain ⟨b, e, hrel⟩ := key ops Spec.init y ⟨⟨0, []⟩, 0⟩ rs ⟨rfl, rfl, rfl, by simp [Spec.init]⟩ hs hr
  refine ⟨b, ?_, hrel.text, hrel.off, by rw [hrel.off, hrel.text]; exact hrel.le⟩
  simp [run, call, exec, defaultCtor, e]

/-- C30. Reading a text of any length in chunks of any sizes gives the text back, piece by piece. -/
theorem C30_chunks (sz : Nat) (hsz : 0 < sz) (r : Range C) (ns : List Nat)
    (hm : r.addr + (r.chars.length + ns.sum) * sz < 18446744073709551616) (b0 : Buf C) :
    ∃ (b : Buf C) (texts : List (List C)), run sz (.default :: .reset r :: ns.map .read) b0 = some (.unit :: .unit :: texts.map .text, b) ∧
      texts.flatten = r.chars.take ns.sum ∧ texts.length = ns.length := by
  have key : ∀ (ns : List Nat) (y : Spec.Text C), y.pos ≤ y.text.length →
      y.addr + (y.text.length + ns.sum) * sz < 18446744073709551616 →
      ∃ (texts : List (List C)) (y' : Spec.Text C), Spec.run (ns.map .read) y = some (texts.map .text, y') ∧ Spec.SafeRun sz (ns.map .read) y ∧
        texts.flatten = (y.text.drop y.pos).take ns.sum ∧ texts.length = ns.length := by
    intro ns
    induction ns with
    | nil => intro y _ _; exact ⟨[], y, by simp [Spec.run], trivial, by simp, rfl⟩
    | cons n ns ih =>
      intro y hle hmem
      have hle' : ({ y with pos := min (y.pos + n) y.text.length } : Spec.Text C).pos ≤ y.text.length := Nat.min_le_right _ _
      have hm2 : y.addr + (y.text.length + ns.sum) * sz < 18446744073709551616 := by
        simp only [List.sum_cons] at hmem
        have : (y.text.length + ns.sum) * sz ≤ (y.text.length + (n + ns.sum)) * sz := Nat.mul_le_mul_right _ (by omega)
        omega
      obtain ⟨texts, y', h1, h2, h3, h4⟩ := ih _ hle' hm2
      refine ⟨(y.text.drop y.pos).take n :: texts, y', ?_, ⟨?_, ?_⟩, ?_, by simp [h4]⟩
      · simp only [List.map_cons, Spec.run, Spec.call, Option.bind_eq_bind, Option.bind_some, h1]
      · simp only [Spec.Safe]
        simp only [List.sum_cons] at hmem
        have : (y.pos + n) * sz ≤ (y.text.length + (n + ns.sum)) * sz := Nat.mul_le_mul_right _ (by omega)
        omega
      · intro r y'' hc
        simp only [Spec.call, Option.some.injEq, Prod.mk.injEq] at hc
        obtain ⟨_, rfl⟩ := hc
        exact h2
      · simp only [List.flatten_cons, h3, List.sum_cons]
        rw [List.take_add]
        congr 1
        rw [List.drop_drop]
        by_cases hc : y.pos + n ≤ y.text.length
        · rw [Nat.min_eq_left hc]
        · rw [List.drop_eq_nil_of_le (by omega : y.text.length ≤ min (y.pos + n) y.text.length),
            List.drop_eq_nil_of_le (by omega : y.text.length ≤ y.pos + n)]
  obtain ⟨texts, y', h1, h2, h3, h4⟩ := key ns ⟨r.chars, 0, r.addr⟩ (by simp) hm
  obtain ⟨b, hb, _⟩ := C30_istream_history_partial sz hsz (.reset r :: ns.map .read) (.unit :: texts.map .text) y'
    (by simp only [Spec.run, Spec.call, Option.bind_eq_bind, Option.bind_some, h1])
    ⟨trivial, by
      intro r' y'' hc
      simp only [Spec.call, Option.some.injEq, Prod.mk.injEq] at hc
      obtain ⟨_, rfl⟩ := hc
      exact h2⟩ b0
  exact ⟨b, texts, hb, by simpa using h3, h4⟩

/-- C30, defect. A read whose amount wraps around the address space (possible for characters of several bytes long before the
largest `std::streamsize`) is not clipped: it reads outside of the range, i.e. is undefined behaviour. -/
theorem C30_wrapping_read_defect (sz : Nat) (hsz : 0 < sz) (ops : List (Op C)) (rs : List (Reply C)) (y : Spec.Text C)
    (hr : Spec.run ops Spec.init = some (rs, y)) (hs : Spec.SafeRun sz ops Spec.init) (b0 : Buf C) (n : Nat)
    (hw : (y.addr + (y.pos + n) * sz) % 18446744073709551616 ≤ y.addr + y.text.length * sz) (hn : y.text.length < y.pos + n) :
    run sz (.default :: ops ++ [.read n]) b0 = none := by
  obtain ⟨b, hb, ht, ho, hle⟩ := C30_istream_history_partial sz hsz ops rs y hr hs b0
  have happ : ∀ (a c : List (Op C)) (b : Buf C), run sz (a ++ c) b = (run sz a b).bind fun p =>
      (run sz c p.2).map fun q => (p.1 ++ q.1, q.2) := by
    intro a c
    induction a with
    | nil => intro b; simp [run]
    | cons op a ih =>
      intro b
      simp only [List.cons_append, run, Option.bind_eq_bind]
      cases call sz op b with
      | none => simp
      | some p =>
        simp only [Option.bind_some, ih]
        cases run sz a p.2 with
        | none => simp
        | some q =>
          simp only [Option.bind_some]
          cases run sz c q.2 <;> simp
  have haddr : b.range.addr = y.addr := by
    have key : ∀ (ops : List (Op C)) (y y' : Spec.Text C) (b : Buf C) rs rs' b', Rel y b → Spec.SafeRun sz ops y →
        Spec.run ops y = some (rs, y') → run sz ops b = some (rs', b') → Rel y' b' := by
      intro ops
      induction ops with
      | nil =>
        intro y y' b rs rs' b' h _ hc hc'
        simp only [Spec.run, run, Option.some.injEq, Prod.mk.injEq] at hc hc'
        rw [← hc.2, ← hc'.2]; exact h
      | cons op ops ih =>
        intro y y' b rs rs' b' h hs hc hc'
        simp only [Spec.run, Option.bind_eq_bind, Option.bind_eq_some_iff, Option.some.injEq] at hc
        obtain ⟨⟨r, y1⟩, h1, ⟨rs1, y2⟩, h2, h3⟩ := hc
        simp only [Prod.mk.injEq] at h3
        obtain ⟨rfl, rfl⟩ := h3
        obtain ⟨b1, e1, hr1⟩ := call_step sz hsz h hs.1 h1
        simp only [run, e1, Option.bind_eq_bind, Option.bind_some, Option.bind_eq_some_iff, Option.some.injEq] at hc'
        obtain ⟨⟨rs2, b2⟩, h4, h5⟩ := hc'
        simp only [Prod.mk.injEq] at h5
        obtain ⟨_, rfl⟩ := h5
        exact ih _ _ _ _ _ _ hr1 (hs.2 _ _ h1) h2 h4
    have hb' := hb
    simp only [run, call, exec, defaultCtor, bind_apply, set_apply, pure_apply, Option.bind_eq_bind, Option.bind_some,
      Option.bind_eq_some_iff, Option.some.injEq] at hb'
    obtain ⟨⟨rs2, b2⟩, h4, h5⟩ := hb'
    simp only [Prod.mk.injEq] at h5
    obtain ⟨_, rfl⟩ := h5
    exact (key ops Spec.init y _ rs _ _ ⟨rfl, rfl, rfl, by simp [Spec.init]⟩ hs hr h4).addr
  rw [happ, hb]
  have hmod : (b.gptr sz + n * sz) % 18446744073709551616 = (y.addr + (y.pos + n) * sz) % 18446744073709551616 := by
    congr 1
    simp only [Buf.gptr, haddr, ho, Nat.add_mul]; omega
  have hnlt : ¬ b.egptr sz < (b.gptr sz + n * sz) % 18446744073709551616 := by
    rw [hmod]; simp only [Buf.egptr, haddr, ht]; omega
  have hno : ¬ b.off + n ≤ b.range.chars.length := by rw [ho, ht]; omega
  simp only [Option.bind_some, run, call, exec, xsgetn, bind_apply, get_apply, hnlt, if_false, copyFrom, hno, undef_apply]
  rfl

/-! ### Concrete cases -/

def demo : List (Op Nat) :=
  [.read 3, .reset ⟨4096, [10, 11, 12, 13, 14]⟩, .peek, .get, .read 2, .tell, .putback 12, .putback 12, .seek (-1) .end, .read 100,
   .get, .tell, .seek 0 .beg, .seek 1 .cur, .get, .size]

/-- a history meeting the hypotheses of C30 -/
example : ∃ y, Spec.run demo Spec.init = some ([.text [], .unit, .char (some 10), .char (some 10), .text [11, 12], .num 3, .bool true,
      .bool false, .num 4, .text [14], .char none, .num 5, .num 0, .num 1, .char (some 11), .num 5], y) ∧
    Spec.SafeRun 4 demo Spec.init := by
  refine ⟨_, rfl, ?_⟩
  simp [Spec.SafeRun, Spec.Safe, demo, Spec.call, Spec.init, Spec.Text.target]

/-- the wrap-around defect with a real address and characters of 4 bytes -/
example : ∃ y, Spec.run [.reset ⟨4096, [10, 11]⟩] Spec.init = some ([Reply.unit], y) ∧
    (y.addr + (y.pos + 4611686018427387904) * 4) % 18446744073709551616 ≤ y.addr + y.text.length * 4 ∧
    y.text.length < y.pos + 4611686018427387904 := by
  refine ⟨_, rfl, ?_, ?_⟩ <;> simp

end Itlib.MemIn
