import Verif.MemOut.Props

/-!
# What writing to a `mem_ostreambuf` costs

C79. A call costs one for each character it is given, one for each character by which the container becomes longer (`resize`
fills the new ones) and, for each allocation of the container, one for each character the container has afterwards (the old
ones are moved).
-/
namespace Itlib.MemOut
open Itlib M
variable {C : Type} {K : Container C}

/-- the characters a call writes -/
def Op.chars : Op C → Nat
  | .put _ => 1
  | .write s => s.length
  | _ => 0

def Op.isClear : Op C → Bool
  | .clear => true
  | _ => false

def Op.isGet : Op C → Bool
  | .get => true
  | _ => false

/-- the characters written in a history -/
def chars (ops : List (Op C)) : Nat := (ops.map Op.chars).sum

/-- the number of calls of `clear` in a history -/
def clears (ops : List (Op C)) : Nat := ops.countP Op.isClear

/-- the number of calls of `get_container` in a history -/
def gets (ops : List (Op C)) : Nat := ops.countP Op.isGet

/-- the cost of a call that goes from one state to another -/
def cost (op : Op C) (b b' : Buf C) : Nat :=
  op.chars + (b'.elems.length - b.elems.length) + (b'.fresh - b.fresh) * b'.elems.length

/-- the cost of a history; `none` is undefined behaviour -/
def work (K : Container C) : List (Op C) → Buf C → Option Nat
  | [], _ => some 0
  | op :: ops, b => do
    let (_, b') ← call K op b
    let w ← work K ops b'
    some (cost op b b' + w)

/-- the cost of a history after construction -/
def programWork (K : Container C) (reserve : Nat) (ops : List (Op C)) : Option Nat :=
  match ctor K reserve ⟨[], 0, 0, .null, .null, 0⟩ with
  | .ok _ b => work K ops b
  | _ => none

/-- the most characters the file has during a history -/
def Spec.peak (K : Container C) : List (Op C) → Spec.File C → Nat
  | [], y => y.data.length
  | op :: ops, y => Nat.max y.data.length (match Spec.call K op y with | some (_, y') => peak K ops y' | none => 0)

/-- The container grows by half at least, to not more than double of what is asked for and a constant. -/
def Container.Geometric (K : Container C) (k : Nat) : Prop :=
  ∀ c n, K.cap0 ≤ c → c < n → K.Fits n → 3 * c ≤ 2 * K.grow c n ∧ K.grow c n ≤ 2 * n + k

/-! ### Which states the calls lead to -/

/-- as many characters, the same memory -/
def Same (b b' : Buf C) : Prop := b'.elems.length = b.elems.length ∧ b'.cap = b.cap ∧ b'.fresh = b.fresh

theorem data_keeps {b b' : Buf C} {p} (h : data K b = .ok p b') : b' = b := by
  rw [data_apply] at h; cases h; rfl

theorem shift_keeps {b b' : Buf C} {p q : Ptr} {n : Int} (h : shift p n b = .ok q b') : b' = b := by
  simp only [shift, bind_apply, get_apply] at h
  cases p <;> simp only at h <;> split at h <;> first | (cases h; rfl) | cases h

theorem copyTo_same {b b' : Buf C} {p : Ptr} {s : List C} (h : copyTo p s b = .ok () b') : Same b b' := by
  simp only [copyTo, bind_apply, get_apply] at h
  cases p <;> simp only at h <;> split at h <;> try cases h
  · exact ⟨rfl, rfl, rfl⟩
  · rename_i hs
    refine ⟨?_, rfl, rfl⟩
    simp; omega

theorem pbump_same {b b' : Buf C} {n : Int} (h : pbump n b = .ok () b') : Same b b' := by
  simp only [pbump, bind_apply, get_apply] at h
  cases hs : shift b.pptr n b with
  | ub => rw [hs] at h; cases h
  | throw e b1 => rw [hs] at h; cases h
  | ok q b1 =>
    rw [hs] at h
    have := shift_keeps hs
    subst this
    cases h
    exact ⟨rfl, rfl, rfl⟩

/-- after `cap_resize_by` the container has as many characters as it has room for -/
theorem capResizeBy_shape {y : Spec.File C} {b b' : Buf C} (hK : K.Grows) (hr : Rel K y b) (ht : y.taken = false) {n : Nat}
    (h : capResizeBy K n b = .ok () b') :
    b'.elems.length = b'.cap ∧
      (b.elems.length + n ≤ b.cap ∧ b'.cap = b.cap ∧ b'.fresh = b.fresh ∨
        b.cap < b.elems.length + n ∧ K.Fits (b.elems.length + n) ∧ b'.cap = K.grow b.cap (b.elems.length + n) ∧
          b'.fresh = b.fresh + 1) := by
  have h3 := hr.size
  simp only [capResizeBy, bind_apply, poff_apply hr ht, get_apply] at h
  -- the first `resize`
  have key : ∀ b1, resize K (b.elems.length + n) b = .ok () b1 → b1.elems.length ≤ b1.cap ∧
      (b.elems.length + n ≤ b.cap ∧ b1.cap = b.cap ∧ b1.fresh = b.fresh ∨
        b.cap < b.elems.length + n ∧ K.Fits (b.elems.length + n) ∧ b1.cap = K.grow b.cap (b.elems.length + n) ∧
          b1.fresh = b.fresh + 1) := by
    intro b1 e
    simp only [resize, bind_apply, get_apply] at e
    by_cases hc : b.elems.length + n ≤ b.cap
    · rw [if_pos hc] at e
      cases e
      refine ⟨?_, .inl ⟨hc, rfl, rfl⟩⟩
      simp; omega
    · rw [if_neg hc] at e
      by_cases hf : K.Fits (b.elems.length + n)
      · rw [if_pos hf] at e
        cases e
        refine ⟨?_, .inr ⟨by omega, hf, rfl, rfl⟩⟩
        have := hK.grow_ge b.cap (b.elems.length + n)
        simp; omega
      · rw [if_neg hf] at e
        cases e
  cases e1 : resize K (b.elems.length + n) b with
  | ub => rw [e1] at h; cases h
  | throw e b1 => rw [e1] at h; cases h
  | ok u b1 =>
    obtain ⟨k1, k2⟩ := key b1 e1
    rw [e1] at h
    -- the second one
    have e2 : resize K b1.cap b1 = .ok ()
        { b1 with elems := b1.elems ++ List.replicate (b1.cap - b1.elems.length) K.fill } := by
      simp [resize, List.take_of_length_le k1]
    simp only [e2, data_apply] at h
    split at h
    · rename_i p b2 e3
      have := shift_keeps e3
      subst this
      split at h
      · rename_i q b3 e4
        have := shift_keeps e4
        subst this
        cases h
        refine ⟨?_, k2⟩
        simp; omega
      · cases h
      · cases h
    · cases h
    · cases h

/-- what a write of `n` characters does to the memory -/
inductive Wrote (K : Container C) (n : Nat) (y : Spec.File C) (b b' : Buf C) : Prop where
  | stays (h : Same b b')
  | fills (hl : b.elems.length < b.cap) (he : b'.elems.length = b'.cap) (hc : b'.cap = b.cap) (hf : b'.fresh = b.fresh)
  | grows (hn : b.cap < y.pos + n) (hf : K.Fits (y.pos + n)) (he : b'.elems.length = b'.cap) (hc : b'.cap = K.grow b.cap (y.pos + n))
      (ha : b'.fresh = b.fresh + 1)

theorem Wrote.trans_same {n : Nat} {y : Spec.File C} {b b' b'' : Buf C} (h : Wrote K n y b b') (h' : Same b' b'') :
    Wrote K n y b b'' := by
  obtain ⟨a1, a2, a3⟩ := h'
  cases h with
  | stays h => obtain ⟨b1, b2, b3⟩ := h; exact .stays ⟨by omega, by omega, by omega⟩
  | fills hl he hc hf => exact .fills hl (by omega) (by omega) (by omega)
  | grows hn hf he hc ha => exact .grows hn hf (by omega) (by omega) (by omega)

theorem wrote_capResizeBy {y : Spec.File C} {b b' : Buf C} (hK : K.Grows) (hr : Rel K y b) (ht : y.taken = false) {n m : Nat}
    (hm : b.elems.length + m = y.pos + n) (h0 : 0 < m) (h : capResizeBy K m b = .ok () b') : Wrote K n y b b' := by
  obtain ⟨he, ⟨a, c, d⟩ | ⟨a, f, c, d⟩⟩ := capResizeBy_shape hK hr ht h
  · exact .fills (by omega) he c d
  · rw [hm] at a f c
    exact .grows a f he c d

theorem bind_ok {σ α β : Type} {f : M σ α} {g : α → M σ β} {s s' : σ} {r : β} (h : (f >>= g) s = .ok r s') :
    ∃ a s1, f s = .ok a s1 ∧ g a s1 = .ok r s' := by
  rw [bind_apply] at h
  cases hf : f s with
  | ub => rw [hf] at h; cases h
  | throw e s1 => rw [hf] at h; cases h
  | ok a s1 => rw [hf] at h; exact ⟨a, s1, rfl, h⟩

theorem rem_eq {y : Spec.File C} {b : Buf C} (h : Rel K y b) (ht : y.taken = false) :
    diff b.epptr b.pptr b = .ok ((b.elems.length : Int) - y.pos) b := by
  have h1 := h.pos; have h2 := h.len; have h3 := h.size
  rw [h.epptr ht, h.pptr ht]; exact diff_ptr b _ _ (by omega) (by omega)

theorem sputc_wrote {y : Spec.File C} {b b' : Buf C} (hK : K.Grows) (hr : Rel K y b) (ht : y.taken = false) {c : C}
    (h : sputc K c b = .ok () b') : Wrote K 1 y b b' := by
  have h1 := hr.pos; have h2 := hr.len
  simp only [sputc, bind_apply, get_apply, rem_eq hr ht] at h
  split at h
  · obtain ⟨_, b1, e1, e2⟩ := bind_ok h
    exact (Wrote.stays (copyTo_same e1)).trans_same (pbump_same e2)
  · obtain ⟨_, b1, e1, e2⟩ := bind_ok h
    obtain ⟨_, b2, e2, e3⟩ := bind_ok e2
    cases e2
    obtain ⟨_, b3, e3, e4⟩ := bind_ok e3
    exact ((wrote_capResizeBy hK hr ht (by omega) (by omega) e1).trans_same (copyTo_same e3)).trans_same (pbump_same e4)

theorem xsputn_wrote {y : Spec.File C} {b b' : Buf C} (hK : K.Grows) (hr : Rel K y b) (ht : y.taken = false) {s : List C}
    (h : xsputn K s b = .ok () b') : Wrote K s.length y b b' := by
  have h1 := hr.pos; have h2 := hr.len
  simp only [xsputn] at h
  obtain ⟨_, b1, e1, h⟩ := bind_ok h
  cases e1
  obtain ⟨_, b1, e1, h⟩ := bind_ok h
  rw [rem_eq hr ht] at e1
  cases e1
  by_cases hc : (b.elems.length : Int) - y.pos < s.length
  · simp only [hc, if_true] at h
    obtain ⟨_, b1, e1, h⟩ := bind_ok h
    obtain ⟨_, b2, e2, h⟩ := bind_ok h
    cases e2
    obtain ⟨_, b3, e3, e4⟩ := bind_ok h
    exact ((wrote_capResizeBy hK hr ht (by omega) (by omega) e1).trans_same (copyTo_same e3)).trans_same (pbump_same e4)
  · simp only [hc, if_false] at h
    obtain ⟨_, b2, e2, h⟩ := bind_ok h
    cases e2
    obtain ⟨_, b3, e3, e4⟩ := bind_ok h
    exact (Wrote.stays (copyTo_same e3)).trans_same (pbump_same e4)

theorem seekpos_same {b b' : Buf C} {t r : Int} (h : seekpos K t b = .ok r b') : Same b b' := by
  simp only [seekpos, bind_apply, get_apply, data_apply] at h
  split at h
  · rename_i p b1 e1
    have := shift_keeps e1
    subst this
    split at h
    · rename_i q b2 e2
      have := shift_keeps e2
      subst this
      cases h
      exact ⟨rfl, rfl, rfl⟩
    · cases h
    · cases h
  · cases h
  · cases h

/-- what a call does to the memory -/
theorem call_shape (hK : K.Lawful) {op : Op C} {y y' : Spec.File C} {b b' : Buf C} {r} (hr : Rel K y b)
    (hs : Spec.Safe K op y) (hg : op.isGet = false) (hc : Spec.call K op y = some (r, y')) (hb : call K op b = some (r, b')) :
    if op.isClear then b'.elems = [] ∧ b'.cap = b.cap ∧ b'.fresh = b.fresh
    else Wrote K op.chars y b b' ∧ (Same b b' ∨ y.pos + op.chars ≤ y'.data.length) := by
  have ht : op.isClear = false → y.taken = false := by
    intro h
    cases hk : y.taken
    · rfl
    · have := hs.1 hk
      subst this
      cases h
  cases op with
  | get => cases hg
  | clear =>
    simp only [call, exec, clear, bind_apply, modify_apply, data_apply, setp, pure_apply, Option.some.injEq, Prod.mk.injEq] at hb
    obtain ⟨-, rfl⟩ := hb
    exact ⟨rfl, rfl, rfl⟩
  | poff =>
    simp only [call, exec, bind_apply, poff_apply hr (ht rfl), pure_apply, Option.some.injEq, Prod.mk.injEq] at hb
    obtain ⟨-, rfl⟩ := hb
    exact ⟨.stays ⟨rfl, rfl, rfl⟩, .inl ⟨rfl, rfl, rfl⟩⟩
  | seek off way =>
    have key : Same b b' := by
      simp only [call, exec] at hb
      split at hb
      · rename_i r1 b1 e
        simp only [Option.some.injEq, Prod.mk.injEq] at hb
        obtain ⟨-, rfl⟩ := hb
        obtain ⟨_, b2, e1, e2⟩ := bind_ok e
        cases e2
        cases way with
        | beg => exact seekpos_same e1
        | cur =>
          simp only [seekoff, bind_apply, poff_apply hr (ht rfl)] at e1
          exact seekpos_same e1
        | «end» => exact absurd rfl hs.2.2
      · rename_i e b1 h
        obtain ⟨b2, e2, hr2⟩ := call_step hK hr hs hc
        simp only [call, exec, h, Option.some.injEq, Prod.mk.injEq] at e2
        simp only [Option.some.injEq, Prod.mk.injEq] at hb
        obtain ⟨rfl, -⟩ := hb
        simp only [Spec.call] at hc
        split at hc <;> simp at hc
      · cases hb
    exact ⟨.stays key, .inl key⟩
  | put c =>
    have hst := sputc_step hK.grows hr (ht rfl) c
    simp only [Spec.call] at hc
    by_cases hf : K.Fits (y.pos + 1)
    · rw [if_pos hf] at hst hc
      obtain ⟨b1, e, -⟩ := hst
      simp only [call, exec, bind_apply, e, pure_apply, Option.some.injEq, Prod.mk.injEq] at hb hc
      obtain ⟨-, rfl⟩ := hb
      obtain ⟨-, rfl⟩ := hc
      refine ⟨sputc_wrote hK.grows hr (ht rfl) e, .inr ?_⟩
      have := hr.pos
      simp [Spec.File.write, Op.chars]; omega
    · rw [if_neg hf] at hst hc
      obtain ⟨e, he⟩ := hst
      simp only [call, exec, bind_apply, he, Option.some.injEq, Prod.mk.injEq] at hb
      obtain ⟨-, rfl⟩ := hb
      exact ⟨.stays ⟨rfl, rfl, rfl⟩, .inl ⟨rfl, rfl, rfl⟩⟩
  | write s =>
    have hst := xsputn_step hK.grows hr (ht rfl) s hs.2
    simp only [Spec.call] at hc
    by_cases hf : K.Fits (y.pos + s.length)
    · rw [if_pos hf] at hst hc
      obtain ⟨b1, e, -⟩ := hst
      simp only [call, exec, bind_apply, e, pure_apply, Option.some.injEq, Prod.mk.injEq] at hb hc
      obtain ⟨-, rfl⟩ := hb
      obtain ⟨-, rfl⟩ := hc
      refine ⟨xsputn_wrote hK.grows hr (ht rfl) e, .inr ?_⟩
      have := hr.pos
      simp [Spec.File.write, Op.chars]; omega
    · rw [if_neg hf] at hst hc
      obtain ⟨e, he⟩ := hst
      simp only [call, exec, bind_apply, he, Option.some.injEq, Prod.mk.injEq] at hb
      obtain ⟨-, rfl⟩ := hb
      exact ⟨.stays ⟨rfl, rfl, rfl⟩, .inl ⟨rfl, rfl, rfl⟩⟩

end Itlib.MemOut
