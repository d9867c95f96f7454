import Verif.Core.Tac
import Verif.BitIter.Spec
import Verif.Bitset.Props

/-!
# Property C56: iterators of dynamic_bitset
-/
namespace Itlib.BitIter
open Itlib Bitset

variable {w : Nat}

/-- an iterator is at that position -/
def At (a : Iter) (p : Nat × Nat) : Prop := a.set = p.1 ∧ a.index = BitVec.ofNat 64 p.2 ∧ p.2 ≤ Spec.maxPos

theorem At.toNat {a : Iter} {p} (h : At a p) : a.index.toNat = p.2 := by
  obtain ⟨_, h2, h3⟩ := h
  unfold Spec.maxPos at h3
  rw [h2, BitVec.toNat_ofNat, Nat.mod_eq_of_lt (by omega)]

theorem At.toInt {a : Iter} {p} (h : At a p) : a.index.toInt = p.2 := by
  have h1 := h.toNat
  have h3 := h.2.2
  unfold Spec.maxPos at h3
  rw [BitVec.toInt_eq_toNat_of_lt (by rw [h1]; omega), h1]

theorem at_of {a : Iter} {i n : Nat} (hs : a.set = i) (hn : a.index.toNat = n) (hm : n ≤ Spec.maxPos) : At a (i, n) := by
  refine ⟨hs, ?_, hm⟩
  rw [← hn]; simp

theorem at_begin (i : Nat) : At (begin_ i) (i, 0) :=
  ⟨rfl, by simp [begin_], by simp⟩

theorem at_end {i : Nat} {b : Bits w} {xs} (h : Shows b xs) (hm : xs.length ≤ Spec.maxPos) : At (end_ i b) (i, xs.length) :=
  ⟨rfl, by simp [end_, h.size], hm⟩

theorem move_succ {i k n : Nat} (hk : k < n) (hn : n ≤ Spec.maxPos) : Spec.move (i, k) 1 = some (i, k + 1) := by
  unfold Spec.move
  generalize Spec.maxPos = m at *
  rw [if_pos (by simp only; omega)]
  simp only [Option.some.injEq, Prod.mk.injEq, true_and]; omega

theorem move_pred {i k : Nat} (hn : k + 1 ≤ Spec.maxPos) : Spec.move (i, k + 1) (-1) = some (i, k) := by
  unfold Spec.move
  generalize Spec.maxPos = m at *
  rw [if_pos (by simp only; omega)]
  simp only [Option.some.injEq, Prod.mk.injEq, true_and]; omega

/-- moving an iterator, with arithmetic modulo 2^64 -/
theorem At.plus {a : Iter} {p q} (h : At a p) {n : Int} (hm : Spec.move p n = some q) : At (plus a n) q := by
  unfold Spec.move at hm
  split at hm
  · rename_i hc
    simp only [Option.some.injEq] at hm
    subst hm
    refine ⟨h.1, ?_, by omega⟩
    unfold BitIter.plus
    rw [h.2.1]
    have hi : (((p.2 : Int) + n).toNat : Int) = (p.2 : Int) + n := Int.toNat_of_nonneg hc.1
    rw [← BitVec.ofInt_natCast, ← BitVec.ofInt_natCast, hi, BitVec.ofInt_add]
  · cases hm

theorem At.minus {a : Iter} {p q} (h : At a p) {n : Int} (hm : Spec.move p (-n) = some q) : At (minus a n) q := by
  have := h.plus hm
  unfold BitIter.plus at this
  unfold BitIter.minus
  rw [BitVec.ofInt_neg, ← BitVec.sub_eq_add_neg] at this
  exact this

theorem At.inc {a : Iter} {p q} (h : At a p) (hm : Spec.move p 1 = some q) : At (inc a) q := by
  have e : BitVec.ofInt 64 1 = 1#64 := by decide
  have := h.plus hm
  unfold BitIter.plus at this
  rw [e] at this
  exact this
theorem At.dec {a : Iter} {p q} (h : At a p) (hm : Spec.move p (-1) = some q) : At (dec a) q := by
  have e : BitVec.ofInt 64 1 = 1#64 := by decide
  have := h.minus hm
  unfold BitIter.minus at this
  rw [e] at this
  exact this

theorem At.eq {a b : Iter} {p q} (h : At a p) (h' : At b q) : eq a b = decide (p.2 = q.2) := by
  unfold BitIter.eq
  rw [Bool.eq_iff_iff, beq_iff_eq, decide_eq_true_eq, ← h.toNat, ← h'.toNat, BitVec.toNat_inj]

theorem At.ne {a b : Iter} {p q} (h : At a p) (h' : At b q) : ne a b = decide (p.2 ≠ q.2) := by
  have := h.eq h'
  unfold BitIter.eq at this
  unfold BitIter.ne
  rw [bne, this, decide_not]

theorem At.diff {a b : Iter} {p q} (h : At a p) (h' : At b q) : diff a b = some ((p.2 : Int) - q.2) := by
  unfold BitIter.diff
  simp only [h.toInt, h'.toInt]
  have h1 := h.2.2
  have h2 := h'.2.2
  unfold Spec.maxPos at h1 h2
  rw [if_pos (by omega)]

/-- bitsets show their lists, iterators are at their positions -/
structure IRel (s : State w) (y : Spec.Sys) : Prop where
  bits : Rel s.bits y.bits
  its : ∀ x, match s.its x, y.its x with
    | some a, some p => At a p
    | none, none => True
    | _, _ => False

theorem IRel.get {s : State w} {y : Spec.Sys} (h : IRel s y) {x p} (hy : y.its x = some p) : ∃ a, s.its x = some a ∧ At a p := by
  have := h.its x
  rw [hy] at this
  cases ha : s.its x with
  | none => rw [ha] at this; exact this.elim
  | some a => rw [ha] at this; exact ⟨a, rfl, this⟩

theorem IRel.def_ {s : State w} {y : Spec.Sys} (h : IRel s y) (z : Nat) {a p} (ha : At a p) : IRel (s.def_ z a) (y.def_ z p) := by
  refine ⟨h.bits, fun x => ?_⟩
  by_cases e : x = z
  · subst e; simpa [State.def_, Spec.Sys.def_] using ha
  · simpa [State.def_, Spec.Sys.def_, Function.update_of_ne e] using h.its x

theorem through_refines {s : State w} {y y' : Spec.Sys} {r : Reply} (h : IRel s y) {a p} (ha : At a p)
    {f : Bits w → Nat → Option (Bits w)} {g : Bool → Bool}
    (hf : ∀ b xs, Shows b xs → ∀ k (hk : k < xs.length), ∃ b', f b k = some b' ∧ Shows b' (xs.set k (g xs[k])))
    (hs : Spec.put y p g = some (r, y')) : ∃ s', through s a f = some (r, s') ∧ IRel s' y' := by
  unfold Spec.put at hs
  cases hy : y.bits p.1 with
  | none => simp [hy] at hs
  | some xs =>
    simp only [hy, Option.bind_eq_bind, Option.bind_some] at hs
    by_cases hk : p.2 < xs.length
    · rw [List.getElem?_eq_getElem hk] at hs
      simp only [Option.bind_some, Option.some.injEq, Prod.mk.injEq] at hs
      obtain ⟨rfl, rfl⟩ := hs
      obtain ⟨b, eb, hb⟩ := h.bits.get hy
      obtain ⟨b', e', hb'⟩ := hf b xs hb p.2 hk
      refine ⟨{ s with bits := Function.update s.bits p.1 (some b') }, ?_, ⟨h.bits.update p.1 hb', h.its⟩⟩
      simp [through, ha.1, eb, ha.toNat, e']
    · rw [List.getElem?_eq_none (by omega)] at hs; cases hs

/-- One step does what the specification says. -/
theorem call_refines (hw : 0 < w) {op : Op w} {s : State w} {y y' : Spec.Sys} {r : Reply} (h : IRel s y)
    (hsafe : ∀ o, op = .bits o → Bitset.Spec.Safe o y.bits) (hs : Spec.step op y = some (r, y')) :
    ∃ s', call op s = some (r, s') ∧ IRel s' y' := by
  cases op with
  | bits o =>
    cases hb : Bitset.Spec.step o y.bits with
    | none => simp [Spec.step, hb] at hs
    | some p =>
      obtain ⟨r0, y0⟩ := p
      simp only [Spec.step, hb, Option.bind_eq_bind, Option.bind_some, Option.some.injEq, Prod.mk.injEq] at hs
      obtain ⟨rfl, rfl⟩ := hs
      obtain ⟨st', e, h'⟩ := Bitset.call_refines hw h.bits (hsafe o rfl) hb
      exact ⟨{ s with bits := st' }, by simp [call, e], ⟨h', h.its⟩⟩
  | «begin» x i =>
    cases hy : y.bits i with
    | none => simp [Spec.step, hy] at hs
    | some xs =>
      simp only [Spec.step, hy, Option.bind_eq_bind, Option.bind_some, Option.some.injEq, Prod.mk.injEq] at hs
      obtain ⟨rfl, rfl⟩ := hs
      obtain ⟨b, eb, hb⟩ := h.bits.get hy
      exact ⟨_, by simp only [call, eb, Option.bind_eq_bind, Option.bind_some], h.def_ x (at_begin i)⟩
  | «end» x i =>
    cases hy : y.bits i with
    | none => simp [Spec.step, hy] at hs
    | some xs =>
      simp only [Spec.step, hy, Option.bind_eq_bind, Option.bind_some] at hs
      split at hs
      · rename_i hm
        simp only [Option.some.injEq, Prod.mk.injEq] at hs
        obtain ⟨rfl, rfl⟩ := hs
        obtain ⟨b, eb, hb⟩ := h.bits.get hy
        exact ⟨_, by simp only [call, eb, Option.bind_eq_bind, Option.bind_some],
          h.def_ x (at_end hb hm)⟩
      · cases hs
  | copy z x =>
    cases hy : y.its x with
    | none => simp [Spec.step, hy] at hs
    | some p =>
      obtain ⟨a, ea, ha⟩ := h.get hy
      simp only [Spec.step, hy, Option.bind_eq_bind, Option.bind_some, Option.some.injEq, Prod.mk.injEq] at hs
      obtain ⟨rfl, rfl⟩ := hs
      exact ⟨_, by simp only [call, ea, Option.bind_eq_bind, Option.bind_some], h.def_ z ha⟩
  | inc x =>
    cases hy : y.its x with
    | none => simp [Spec.step, hy] at hs
    | some p =>
      obtain ⟨a, ea, ha⟩ := h.get hy
      cases hm : Spec.move p 1 with
      | none => simp only [Spec.step, hy, hm, Option.bind_eq_bind, Option.bind_some, Option.bind_none, reduceCtorEq] at hs
      | some q =>
        simp only [Spec.step, hy, hm, Option.bind_eq_bind, Option.bind_some, Option.some.injEq, Prod.mk.injEq] at hs
        obtain ⟨rfl, rfl⟩ := hs
        exact ⟨_, by simp only [call, ea, Option.bind_eq_bind, Option.bind_some], h.def_ x (ha.inc hm)⟩
  | dec x =>
    cases hy : y.its x with
    | none => simp [Spec.step, hy] at hs
    | some p =>
      obtain ⟨a, ea, ha⟩ := h.get hy
      cases hm : Spec.move p (-1) with
      | none => simp only [Spec.step, hy, hm, Option.bind_eq_bind, Option.bind_some, Option.bind_none, reduceCtorEq] at hs
      | some q =>
        simp only [Spec.step, hy, hm, Option.bind_eq_bind, Option.bind_some, Option.some.injEq, Prod.mk.injEq] at hs
        obtain ⟨rfl, rfl⟩ := hs
        exact ⟨_, by simp only [call, ea, Option.bind_eq_bind, Option.bind_some], h.def_ x (ha.dec hm)⟩
  | postInc z x =>
    cases hy : y.its x with
    | none => simp [Spec.step, hy] at hs
    | some p =>
      obtain ⟨a, ea, ha⟩ := h.get hy
      cases hm : Spec.move p 1 with
      | none => simp only [Spec.step, hy, hm, Option.bind_eq_bind, Option.bind_some, Option.bind_none, reduceCtorEq] at hs
      | some q =>
        simp only [Spec.step, hy, hm, Option.bind_eq_bind, Option.bind_some, Option.some.injEq, Prod.mk.injEq] at hs
        obtain ⟨rfl, rfl⟩ := hs
        exact ⟨_, by simp only [call, ea, Option.bind_eq_bind, Option.bind_some], (h.def_ x (ha.inc hm)).def_ z ha⟩
  | postDec z x =>
    cases hy : y.its x with
    | none => simp [Spec.step, hy] at hs
    | some p =>
      obtain ⟨a, ea, ha⟩ := h.get hy
      cases hm : Spec.move p (-1) with
      | none => simp only [Spec.step, hy, hm, Option.bind_eq_bind, Option.bind_some, Option.bind_none, reduceCtorEq] at hs
      | some q =>
        simp only [Spec.step, hy, hm, Option.bind_eq_bind, Option.bind_some, Option.some.injEq, Prod.mk.injEq] at hs
        obtain ⟨rfl, rfl⟩ := hs
        exact ⟨_, by simp only [call, ea, Option.bind_eq_bind, Option.bind_some], (h.def_ x (ha.dec hm)).def_ z ha⟩
  | plus z x n =>
    cases hy : y.its x with
    | none => simp [Spec.step, hy] at hs
    | some p =>
      obtain ⟨a, ea, ha⟩ := h.get hy
      cases hm : Spec.move p n with
      | none => simp only [Spec.step, hy, hm, Option.bind_eq_bind, Option.bind_some, Option.bind_none, reduceCtorEq] at hs
      | some q =>
        simp only [Spec.step, hy, hm, Option.bind_eq_bind, Option.bind_some, Option.some.injEq, Prod.mk.injEq] at hs
        obtain ⟨rfl, rfl⟩ := hs
        exact ⟨_, by simp only [call, ea, Option.bind_eq_bind, Option.bind_some], h.def_ z (ha.plus hm)⟩
  | minus z x n =>
    cases hy : y.its x with
    | none => simp [Spec.step, hy] at hs
    | some p =>
      obtain ⟨a, ea, ha⟩ := h.get hy
      cases hm : Spec.move p (-n) with
      | none => simp only [Spec.step, hy, hm, Option.bind_eq_bind, Option.bind_some, Option.bind_none, reduceCtorEq] at hs
      | some q =>
        simp only [Spec.step, hy, hm, Option.bind_eq_bind, Option.bind_some, Option.some.injEq, Prod.mk.injEq] at hs
        obtain ⟨rfl, rfl⟩ := hs
        exact ⟨_, by simp only [call, ea, Option.bind_eq_bind, Option.bind_some], h.def_ z (ha.minus hm)⟩
  | eq x z | ne x z | diff x z =>
    all_goals
      cases hy : y.its x with
      | none => simp [Spec.step, hy] at hs
      | some p =>
        cases hy2 : y.its z with
        | none => simp [Spec.step, hy, hy2] at hs
        | some q =>
          obtain ⟨a, ea, ha⟩ := h.get hy
          obtain ⟨b, eb, hb⟩ := h.get hy2
          simp only [Spec.step, hy, hy2, Option.bind_eq_bind, Option.bind_some] at hs
          split at hs
          · simp only [Option.some.injEq, Prod.mk.injEq] at hs
            obtain ⟨rfl, rfl⟩ := hs
            refine ⟨s, ?_, h⟩
            simp only [call, ea, eb, Option.bind_eq_bind, Option.bind_some, ha.eq hb, ha.ne hb, ha.diff hb]
          · cases hs
  | read x =>
    cases hy : y.its x with
    | none => simp [Spec.step, hy] at hs
    | some p =>
      obtain ⟨a, ea, ha⟩ := h.get hy
      cases hy2 : y.bits p.1 with
      | none => simp [Spec.step, hy, hy2] at hs
      | some xs =>
        simp only [Spec.step, hy, hy2, Option.bind_eq_bind, Option.bind_some] at hs
        by_cases hk : p.2 < xs.length
        · rw [List.getElem?_eq_getElem hk] at hs
          simp only [Option.bind_some, Option.some.injEq, Prod.mk.injEq] at hs
          obtain ⟨rfl, rfl⟩ := hs
          obtain ⟨b, eb, hb⟩ := h.bits.get hy2
          exact ⟨s, by simp [call, ea, ha.1, eb, ha.toNat, test_eq hw hb p.2 hk], h⟩
        · rw [List.getElem?_eq_none (by omega)] at hs; cases hs
  | write x v =>
    cases hy : y.its x with
    | none => simp [Spec.step, hy] at hs
    | some p =>
      obtain ⟨a, ea, ha⟩ := h.get hy
      simp only [Spec.step, hy, Option.bind_eq_bind, Option.bind_some] at hs
      obtain ⟨s', e, h'⟩ := through_refines h ha (f := (setTo · · v)) (fun b xs hb k hk => setTo_eq hw hb k hk v) hs
      exact ⟨s', by simp only [call, ea, Option.bind_eq_bind, Option.bind_some, e], h'⟩
  | set x =>
    cases hy : y.its x with
    | none => simp [Spec.step, hy] at hs
    | some p =>
      obtain ⟨a, ea, ha⟩ := h.get hy
      simp only [Spec.step, hy, Option.bind_eq_bind, Option.bind_some] at hs
      obtain ⟨s', e, h'⟩ := through_refines h ha (f := Bitset.set) (fun b xs hb k hk => set_eq hw hb k hk) hs
      exact ⟨s', by simp only [call, ea, Option.bind_eq_bind, Option.bind_some, e], h'⟩
  | reset x =>
    cases hy : y.its x with
    | none => simp [Spec.step, hy] at hs
    | some p =>
      obtain ⟨a, ea, ha⟩ := h.get hy
      simp only [Spec.step, hy, Option.bind_eq_bind, Option.bind_some] at hs
      obtain ⟨s', e, h'⟩ := through_refines h ha (f := Bitset.reset) (fun b xs hb k hk => reset_eq hw hb k hk) hs
      exact ⟨s', by simp only [call, ea, Option.bind_eq_bind, Option.bind_some, e], h'⟩
  | flip x =>
    cases hy : y.its x with
    | none => simp [Spec.step, hy] at hs
    | some p =>
      obtain ⟨a, ea, ha⟩ := h.get hy
      simp only [Spec.step, hy, Option.bind_eq_bind, Option.bind_some] at hs
      obtain ⟨s', e, h'⟩ := through_refines h ha (f := Bitset.flip) (fun b xs hb k hk => flip_eq hw hb k hk) hs
      exact ⟨s', by simp only [call, ea, Option.bind_eq_bind, Option.bind_some, e], h'⟩

theorem run_refines (hw : 0 < w) : ∀ (ops : List (Op w)) {s : State w} {y y' : Spec.Sys} {rs : List Reply},
    IRel s y → Spec.SafeRun ops y → Spec.run ops y = some (rs, y') → ∃ s', run ops s = some (rs, s') ∧ IRel s' y'
  | [], s, y, y', rs, h, _, hs => by
    simp only [Spec.run, Option.some.injEq, Prod.mk.injEq] at hs
    obtain ⟨rfl, rfl⟩ := hs
    exact ⟨s, rfl, h⟩
  | op :: ops, s, y, y', rs, h, hsafe, hs => by
    simp only [Spec.run, Option.bind_eq_bind] at hs
    cases h1 : Spec.step op y with
    | none => simp [h1] at hs
    | some p =>
      obtain ⟨r, y1⟩ := p
      simp only [h1, Option.bind_some] at hs
      cases h2 : Spec.run ops y1 with
      | none => simp [h2] at hs
      | some p =>
        obtain ⟨rs', y2⟩ := p
        simp only [h2, Option.bind_some, Option.some.injEq, Prod.mk.injEq] at hs
        obtain ⟨rfl, rfl⟩ := hs
        obtain ⟨s1, e1, r1⟩ := call_refines hw h hsafe.1 h1
        obtain ⟨s2, e2, r2⟩ := run_refines hw ops r1 (hsafe.2 _ _ h1) h2
        exact ⟨s2, by simp [run, e1, e2], r2⟩

/-- C56. In any program with any number of bitsets and iterators, the iterators are positions: they move, compare and subtract as
numbers, reading gives the bit at the position, writing, setting, resetting and flipping change that bit and no other; they stay
valid while the bitset is resized, appended to, copied to or assigned. The calls of the bitsets themselves must be safe (C19). -/
theorem C56_iterators (hw : 0 < w) (ops : List (Op w)) (rs : List Reply) (y : Spec.Sys)
    (hsafe : Spec.SafeRun ops ⟨fun _ => none, fun _ => none⟩) (hs : Spec.run ops ⟨fun _ => none, fun _ => none⟩ = some (rs, y)) :
    ∃ s, run ops ⟨Store.init, fun _ => none⟩ = some (rs, s) ∧
      (∀ i xs, y.bits i = some xs → ∃ b, s.bits i = some b ∧ b.size = xs.length ∧
        ∀ k (hk : k < xs.length), test b k = some xs[k]) ∧
      ∀ x i p, y.its x = some (i, p) → ∃ a, s.its x = some a ∧ a.set = i ∧ a.index.toNat = p := by
  obtain ⟨s, e, h⟩ := run_refines hw ops (s := ⟨Store.init, fun _ => none⟩) ⟨rel_init, fun _ => trivial⟩ hsafe hs
  refine ⟨s, e, fun i xs hy => ?_, fun x i p hy => ?_⟩
  · obtain ⟨b, eb, hb⟩ := h.bits.get hy
    exact ⟨b, eb, hb.size, fun k hk => test_eq hw hb k hk⟩
  · obtain ⟨a, ea, ha⟩ := h.get hy
    exact ⟨a, ea, ha.1, ha.toNat⟩

theorem forEach_eq (hw : 0 < w) {b : Bits w} {xs} (h : Shows b xs) (hm : xs.length ≤ Spec.maxPos) {i : Nat} {last : Iter}
    (hl : At last (i, xs.length)) : ∀ f k (it : Iter) out, At it (i, k) → k ≤ xs.length → xs.length - k < f →
      forEach b f it last out = some (out ++ xs.drop k)
  | 0, _, _, _, _, _, hf => by omega
  | f+1, k, it, out, ha, hk, hf => by
    simp only [forEach, ha.ne hl]
    by_cases hkl : k = xs.length
    · subst hkl; simp
    · have hk' : k < xs.length := by omega
      have hmv : Spec.move (i, k) 1 = some (i, k + 1) := move_succ hk' hm
      simp only [ne_eq, hkl, not_false_eq_true, decide_true, if_true, ha.toNat, test_eq hw h k hk', Option.bind_eq_bind, Option.bind_some]
      rw [forEach_eq hw h hm hl f (k + 1) _ _ (ha.inc hmv) (by omega) (by omega), List.append_assoc, List.drop_eq_getElem_cons hk',
        List.singleton_append]

theorem forEachRev_eq (hw : 0 < w) {b : Bits w} {xs} (h : Shows b xs) {i : Nat} {first : Iter}
    (hl : At first (i, 0)) : ∀ f k (it : Iter) out, At it (i, k) → k ≤ xs.length → k < f →
      forEachRev b f it first out = some (out ++ (xs.take k).reverse)
  | 0, _, _, _, _, _, hf => by omega
  | f+1, k, it, out, ha, hk, hf => by
    simp only [forEachRev, ha.ne hl]
    by_cases hkl : k = 0
    · subst hkl; simp
    · obtain ⟨k, rfl⟩ : ∃ j, k = j + 1 := ⟨k - 1, by omega⟩
      have hk' : k < xs.length := by omega
      have hmv : Spec.move (i, k + 1) (-1) = some (i, k) := move_pred ha.2.2
      have hd := ha.dec hmv
      simp only [ne_eq, hkl, not_false_eq_true, decide_true, if_true, hd.toNat, test_eq hw h k hk', Option.bind_eq_bind, Option.bind_some]
      rw [forEachRev_eq hw h hl f k _ _ hd (by omega) (by omega), List.append_assoc]
      rw [show (xs.take (k + 1)).reverse = [xs[k]] ++ (xs.take k).reverse from by
        rw [List.take_succ_eq_append_getElem hk', List.reverse_append]; rfl]

theorem transform_eq (hw : 0 < w) (g : Bool → Bool) (n : Nat) (hm : n ≤ Spec.maxPos) {i : Nat} {last : Iter}
    (hl : At last (i, n)) : ∀ f k (b : Bits w) xs (it : Iter), Shows b xs → xs.length = n → At it (i, k) → k ≤ n → n - k < f →
      ∃ b', transform g f b it last = some b' ∧ Shows b' (xs.take k ++ (xs.drop k).map g)
  | 0, _, _, _, _, _, _, _, _, hf => by omega
  | f+1, k, b, xs, it, h, hn, ha, hk, hf => by
    simp only [transform, ha.ne hl]
    by_cases hkl : k = n
    · subst hkl
      refine ⟨b, by simp, ?_⟩
      rw [← hn]; simpa using h
    · have hk' : k < xs.length := by omega
      have hmv : Spec.move (i, k) 1 = some (i, k + 1) := move_succ (n := n) (by omega) hm
      obtain ⟨b1, e1, h1⟩ := setTo_eq hw h k hk' (g xs[k])
      simp only [ne_eq, hkl, not_false_eq_true, decide_true, if_true, ha.toNat, test_eq hw h k hk', Option.bind_eq_bind, Option.bind_some, e1]
      obtain ⟨b2, e2, h2⟩ := transform_eq hw g n hm hl f (k + 1) b1 _ _ h1 (by simpa using hn) (ha.inc hmv) (by omega) (by omega)
      refine ⟨b2, e2, ?_⟩
      have : (xs.set k (g xs[k])).take (k + 1) ++ ((xs.set k (g xs[k])).drop (k + 1)).map g = xs.take k ++ (xs.drop k).map g := by
        rw [List.drop_set_of_lt (by omega), List.drop_eq_getElem_cons hk', List.map_cons,
          List.take_succ_eq_append_getElem (by simpa using hk'), List.take_set_of_le (by omega), List.getElem_set_self]
        simp
      rw [this] at h2
      exact h2

/-- C56. A range-based `for` over a bitset sees exactly its bits, in order; the loop from the end to the beginning sees them in
reverse; and the loop that replaces every bit by a function of it does just that. All loops end. -/
theorem C56_loops (hw : 0 < w) {b : Bits w} {xs} (h : Reachable b xs) (hm : xs.length < 2 ^ 63) (i : Nat) (g : Bool → Bool) :
    forEach b (xs.length + 1) (begin_ i) (end_ i b) [] = some xs ∧
    forEachRev b (xs.length + 1) (end_ i b) (begin_ i) [] = some xs.reverse ∧
    ∃ b', transform g (xs.length + 1) b (begin_ i) (end_ i b) = some b' ∧ b'.size = xs.length ∧
      ∀ k (hk : k < xs.length), test b' k = some (g xs[k]) := by
  have hs := h.shows hw
  have hm' : xs.length ≤ Spec.maxPos := by unfold Spec.maxPos; omega
  have he : At (end_ i b) (i, xs.length) := at_end hs hm'
  have hb : At (begin_ i) (i, 0) := at_begin i
  refine ⟨?_, ?_, ?_⟩
  · rw [forEach_eq hw hs hm' he _ 0 _ _ hb (by omega) (by omega)]; simp
  · rw [forEachRev_eq hw hs hb _ xs.length _ _ he (by omega) (by omega)]; simp
  · obtain ⟨b', e, h'⟩ := transform_eq hw g xs.length hm' he (xs.length + 1) 0 b xs _ hs rfl hb (by omega) (by omega)
    simp only [List.take_zero, List.drop_zero, List.nil_append] at h'
    refine ⟨b', e, by rw [h'.size]; simp, fun k hk => ?_⟩
    rw [test_eq hw h' k (by simpa using hk), List.getElem_map]

/-- C56. Iterators of different bitsets with equal indices compare equal: `operator==` is meaningful only within a bitset (the
specification has no answer for others). -/
theorem C56_compare_across (i j : Nat) : eq (begin_ i) (begin_ j) = true := by simp [eq, begin_]

/-! ## The hypotheses are met -/

/-- a program that keeps iterators while its bitsets change -/
def demo : List (Op 8) :=
  [.bits (.new 0 3 0#8), .begin 0 0, .end 1 0, .bits (.pushBack 0 true), .read 1, .write 1 false, .bits (.resize 0 20), .plus 2 1 9,
   .set 2, .flip 2, .flip 2, .diff 2 0, .diff 0 2, .postInc 3 0, .ne 0 3, .minus 4 2 (-3), .eq 2 4, .dec 4, .read 4, .read 2,
   .bits (.test 0 12)]

example : (Spec.run demo ⟨fun _ => none, fun _ => none⟩).map (·.1) =
      some [.bits .unit, .unit, .unit, .bits .unit, .bool true, .unit, .bits .unit, .unit, .unit, .unit, .unit, .int 12, .int (-12),
        .unit, .bool true, .unit, .bool false, .unit, .bool false, .bool true, .bits (.bool true)] ∧
    (run demo ⟨Store.init, fun _ => none⟩).map (·.1) = (Spec.run demo ⟨fun _ => none, fun _ => none⟩).map (·.1) := by decide +kernel

example : Spec.SafeRun demo ⟨fun _ => none, fun _ => none⟩ := by
  have key : ∀ (ops : List (Op 8)) s, (∀ o, .bits o ∈ ops → (∀ i, o ≠ .all i) ∧ (∀ i j, o ≠ .append i j) ∧ ∀ i a b j c, o ≠ .copy i a b j c) →
      Spec.SafeRun ops s := by
    intro ops
    induction ops with
    | nil => intros; trivial
    | cons op ops ih =>
      intro s h
      refine ⟨fun o ho => ?_, fun r s' _ => ih s' fun o ho => h o (List.mem_cons_of_mem _ ho)⟩
      obtain ⟨h1, h2, h3⟩ := h o (by rw [← ho]; exact List.mem_cons_self)
      cases o <;> first | trivial | exact absurd rfl (h1 _) | exact absurd rfl (h2 _ _) | exact absurd rfl (h3 _ _ _ _ _)
  apply key
  intro o ho
  simp [demo] at ho
  rcases ho with rfl | rfl | rfl | rfl <;> simp

end Itlib.BitIter
