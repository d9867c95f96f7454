import Verif.Core.Tac
import Verif.BitBuf.Spec
import Verif.Bitset.Props

/-!
# The allocating functions of `dynamic_bitset`, one by one
-/
namespace Itlib.BitBuf
open Itlib Bitset

variable {w : Nat}

theorem words_eq (hw : 0 < w) (n : Nat) : Spec.words w n = wordSize w n := by
  unfold Spec.words wordSize
  congr 1; omega

theorem wordSizeW_eq (hw : 0 < w) {n : Nat} (h : Spec.Fits w n) : wordSizeW w n = wordSize w n := by
  unfold wordSizeW wordSize
  rw [Nat.mod_eq_of_lt]
  unfold Spec.Fits at h
  omega

theorem short_false {env : Env w} {a b : Nat} : Spec.short env a b = false ↔ (a < b → env.room b = true) := by
  unfold Spec.short
  by_cases h : a < b <;> simp [h]

theorem short_true {env : Env w} {a b : Nat} : Spec.short env a b = true ↔ a < b ∧ env.room b = false := by
  unfold Spec.short
  by_cases h : a < b <;> simp [h]

/-- the first lines of `resize`: the unused bits of the last word are cleared -/
def clearTail (b : Bits w) : Option (Bits w) :=
  if b.size % w ≠ 0 then
    (if b.words = [] then none else putWord b (b.words.length - 1) (· &&& (wordMask w (b.size % w) - 1#w)))
  else some b

theorem resize_run (env : Env w) (n : Nat) (b : Bits w) :
    resize env n b = match clearTail b with
      | some b1 => bufResize env (wordSizeW w n) { b1 with size := n }
      | none => .ub := by
  unfold resize clearTail
  by_cases h : b.size % w = 0
  · simp [h]
  · simp only [M.bind_apply, M.get_apply, h, ne_eq, not_false_eq_true, if_true, M.mem]
    generalize (if b.words = [] then none else putWord b (b.words.length - 1) fun x => x &&& (wordMask w (b.size % w) - 1#w)) = o
    cases o <;> rfl

theorem clearTail_eq {b : Bits w} {xs} (hw : 0 < w) (h : Shows b xs) :
    ∃ b', clearTail b = some b' ∧ b'.size = b.size ∧ b'.words.length = b.words.length ∧
      ∀ q r, r < w → bit b'.words q r = if h : q * w + r < xs.length then xs[q * w + r] else false := by
  unfold clearTail
  rw [h.size]
  by_cases hp : xs.length % w = 0
  · simp only [hp, ne_eq, not_true_eq_false, if_false]
    refine ⟨_, rfl, h.size, rfl, ?_⟩
    intro q r hr
    by_cases hx : q * w + r < xs.length
    · rw [dif_pos hx, h.bits q r hr hx]
    · rw [dif_neg hx]
      apply bit_out
      rw [h.len, wordSize_exact hw hp]
      have e := Nat.div_add_mod xs.length w
      rw [hp, Nat.mul_comm] at e
      by_contra hc
      have : (q + 1) * w ≤ xs.length / w * w := Nat.mul_le_mul_right w (by omega)
      rw [Nat.add_mul] at this
      omega
  · have hlen : b.words.length = xs.length / w + 1 := by rw [h.len, wordSize_last hw hp]
    have hne : b.words ≠ [] := by intro c; rw [c] at hlen; simp at hlen
    have hpos : 0 < b.words.length := List.length_pos_iff.2 hne
    obtain ⟨b', e, e1, e2, e3⟩ := putWord_eq (b := b) (k := b.words.length - 1)
      (fun x => x &&& (wordMask w (xs.length % w) - 1#w)) (by omega)
    simp only [hp, hne, ne_eq, not_false_eq_true, if_true, if_false]
    refine ⟨b', e, by rw [e1, h.size], e2, ?_⟩
    intro q r hr
    rw [e3]
    have ed := Nat.div_add_mod xs.length w
    rw [Nat.mul_comm] at ed
    have hm := Nat.mod_lt xs.length hw
    by_cases hq' : q = b.words.length - 1
    · rw [if_pos hq']
      have hq2 : q = xs.length / w := by omega
      simp only [BitVec.getLsbD_and, getLsbD_lowMask hm hr]
      by_cases hx : q * w + r < xs.length
      · rw [dif_pos hx, ← h.bits q r hr hx]
        have : r < xs.length % w := by rw [hq2] at hx; omega
        simp only [this, decide_true, Bool.and_true]
        rw [bit_of_getElem?]
        simp only [hq']
        exact List.getElem?_eq_getElem (by omega)
      · rw [dif_neg hx]
        have : ¬ r < xs.length % w := by rw [hq2] at hx; omega
        simp [this]
    · rw [if_neg hq']
      by_cases hx : q * w + r < xs.length
      · rw [dif_pos hx, h.bits q r hr hx]
      · rw [dif_neg hx]
        apply bit_out
        by_contra hc
        have : (q + 1) * w ≤ xs.length / w * w := Nat.mul_le_mul_right w (by omega)
        rw [Nat.add_mul] at this
        omega

theorem bit_take_fresh (ws : List (BitVec w)) (f : Nat → BitVec w) (n q r : Nat) (hq : q < n) :
    bit (ws.take n ++ (List.range' ws.length (n - ws.length)).map f) q r =
      if q < ws.length then bit ws q r else (f q).getLsbD r := by
  unfold bit
  by_cases h2 : q < ws.length
  · rw [if_pos h2, List.getElem?_append_left (by simp; omega), List.getElem?_take_of_lt hq]
  · rw [if_neg h2, List.getElem?_append_right (by simp; omega)]
    rw [List.getElem?_map, List.getElem?_range' (by simp; omega)]
    have e : ws.length + 1 * (q - (List.take n ws).length) = q := by simp; omega
    rw [e]; rfl

theorem length_take_fresh (ws : List (BitVec w)) (f : Nat → BitVec w) (n : Nat) :
    (ws.take n ++ (List.range' ws.length (n - ws.length)).map f).length = n := by
  simp [List.length_take]; omega

/-- `resize` that does not throw -/
theorem resize_bits {b : Bits w} {xs} (hw : 0 < w) (h : Shows b xs) (env : Env w) {n : Nat} (hn : Spec.Fits w n)
    (hr : wordSize w xs.length < wordSize w n → env.room (wordSize w n) = true) :
    ∃ b', resize env n b = .ok () b' ∧ b'.size = n ∧ b'.words.length = wordSize w n ∧
      ∀ q r, r < w → q < wordSize w n → bit b'.words q r =
        if h : q * w + r < xs.length then xs[q * w + r] else if q < wordSize w xs.length then false else (env.fresh q).getLsbD r := by
  obtain ⟨b1, e, e1, e2, e3⟩ := clearTail_eq hw h
  rw [resize_run, e, wordSizeW_eq hw hn]
  have hl : b1.words.length = wordSize w xs.length := by rw [e2, h.len]
  refine ⟨⟨b1.words.take (wordSize w n) ++ (List.range' b1.words.length (wordSize w n - b1.words.length)).map env.fresh, n⟩, ?_, rfl,
    length_take_fresh b1.words env.fresh (wordSize w n), ?_⟩
  · simp only [bufResize]
    rw [if_neg]
    rw [hl]
    rintro ⟨c1, c2⟩
    rw [hr c1] at c2; cases c2
  · intro q r hr2 hq
    simp only
    rw [bit_take_fresh _ _ _ _ _ hq, hl]
    by_cases hq2 : q < wordSize w xs.length
    · rw [if_pos hq2, e3 q r hr2, if_pos hq2]
    · rw [if_neg hq2, if_neg hq2, dif_neg]
      intro hc
      exact hq2 (lt_wordSize_of hw hc)

/-- `resize` that throws -/
theorem resize_throws {b : Bits w} {xs} (hw : 0 < w) (h : Shows b xs) (env : Env w) {n : Nat} (hn : Spec.Fits w n)
    (hr : wordSize w xs.length < wordSize w n) (hr2 : env.room (wordSize w n) = false) :
    ∃ b', resize env n b = .throw env.exc b' ∧ b'.size = n ∧ b'.words.length = wordSize w xs.length ∧
      ∀ q r, r < w → bit b'.words q r = if h : q * w + r < xs.length then xs[q * w + r] else false := by
  obtain ⟨b1, e, e1, e2, e3⟩ := clearTail_eq hw h
  rw [resize_run, e, wordSizeW_eq hw hn]
  have hl : b1.words.length = wordSize w xs.length := by rw [e2, h.len]
  refine ⟨⟨b1.words, n⟩, ?_, rfl, hl, e3⟩
  simp only [bufResize]
  rw [if_pos]
  exact ⟨by rw [hl]; exact hr, hr2⟩

/-- what `resize` shows: the new words are those of the buffer -/
theorem resize_shows {b : Bits w} {xs} (hw : 0 < w) (h : Shows b xs) (env : Env w) {n : Nat} (hn : Spec.Fits w n)
    (hr : wordSize w xs.length < wordSize w n → env.room (wordSize w n) = true) :
    ∃ b', resize env n b = .ok () b' ∧ Shows b' ((List.range n).map fun k =>
      if h : k < xs.length then xs[k] else if k / w < wordSize w xs.length then false else (env.fresh (k / w)).getLsbD (k % w)) := by
  obtain ⟨b', e, e1, e2, e3⟩ := resize_bits hw h env hn hr
  refine ⟨b', e, by simp [e2], by simp [e1], ?_⟩
  intro q r hr2 hq
  simp only [List.length_map, List.length_range] at hq
  have hd := (split_unique hw hr2 (q := q) (i := q * w + r)).1 rfl
  rw [e3 q r hr2 (lt_wordSize_of hw hq), List.getElem_map, List.getElem_range, hd.1, hd.2]

theorem resize_zero {b : Bits w} {xs} (hw : 0 < w) (h : Shows b xs) (env : Env w) {n : Nat} (hn : Spec.Fits w n)
    (hr : wordSize w xs.length < wordSize w n → env.room (wordSize w n) = true ∧
      ∀ k, wordSize w xs.length ≤ k → k < wordSize w n → env.fresh k = 0) :
    ∃ b', resize env n b = .ok () b' ∧ Shows b' (xs.take n ++ List.replicate (n - xs.length) false) := by
  obtain ⟨b', e, e1, e2, e3⟩ := resize_bits hw h env hn fun c => (hr c).1
  have hl : (xs.take n ++ List.replicate (n - xs.length) false).length = n := by simp; omega
  refine ⟨b', e, by rw [e2, hl], by rw [e1, hl], ?_⟩
  intro q r hr2 hq
  rw [hl] at hq
  have hq2 := lt_wordSize_of hw hq
  rw [e3 q r hr2 hq2, List.getElem_append]
  by_cases hx : q * w + r < xs.length
  · rw [dif_pos hx, dif_pos (by simp; omega), List.getElem_take]
  · rw [dif_neg hx, dif_neg (by simp; omega), List.getElem_replicate]
    by_cases hq3 : q < wordSize w xs.length
    · rw [if_pos hq3]
    · rw [if_neg hq3, (hr (by omega)).2 q (by omega) hq2]; simp

theorem pushBack_eq {b : Bits w} {xs} (hw : 0 < w) (h : Shows b xs) (env : Env w) (v : Bool) (hn : Spec.Fits w (xs.length + 1))
    (hr : wordSize w xs.length < wordSize w (xs.length + 1) → env.room (wordSize w (xs.length + 1)) = true) :
    ∃ b', pushBack env v b = .ok () b' ∧ Shows b' (xs ++ [v]) := by
  obtain ⟨b1, e, h1⟩ := resize_shows hw h env hn hr
  have hlt : xs.length + 1 < 2 ^ 64 := by unfold Spec.Fits at hn; omega
  have hs : b1.size = xs.length + 1 := by rw [h1.size]; simp
  obtain ⟨b2, e2, h2⟩ := setTo_eq hw h1 xs.length (by simp) v
  refine ⟨b2, ?_, ?_⟩
  · have hm : (xs.length + 1 + (2 ^ 64 - 1)) % 2 ^ 64 = xs.length := by
      rw [show xs.length + 1 + (2 ^ 64 - 1) = xs.length + 2 ^ 64 from by omega, Nat.add_mod_right, Nat.mod_eq_of_lt (by omega)]
    simp only [pushBack, M.bind_apply, M.get_apply, h.size, Nat.mod_eq_of_lt hlt, e, hs, M.mem, hm, e2]
  · have : (((List.range (xs.length + 1)).map fun k =>
        if h : k < xs.length then xs[k] else if k / w < wordSize w xs.length then false else (env.fresh (k / w)).getLsbD (k % w)).set xs.length v)
        = xs ++ [v] := by
      apply List.ext_getElem
      · simp
      · intro i h1 h2
        rw [List.getElem_set]
        by_cases hi : xs.length = i
        · subst hi; simp
        · rw [if_neg hi]
          have : i < xs.length := by simp at h1; omega
          simp [this, List.getElem_append_left]
    rw [this] at h2
    exact h2

theorem new_eq (hw : 0 < w) (env : Env w) {n : Nat} (hn : Spec.Fits w n) (value : BitVec w)
    (hr : 0 < wordSize w n → env.room (wordSize w n) = true) : new env n value = some (Bitset.new n value) := by
  unfold new
  rw [wordSizeW_eq hw hn, if_neg]
  · rfl
  · rintro ⟨c1, c2⟩
    rw [hr c1] at c2; cases c2

theorem new_throws (hw : 0 < w) (env : Env w) {n : Nat} (hn : Spec.Fits w n) (value : BitVec w)
    (hr : 0 < wordSize w n) (hr2 : env.room (wordSize w n) = false) : new env n value = none := by
  unfold new
  rw [wordSizeW_eq hw hn, if_pos ⟨hr, hr2⟩]

theorem wordSize_add (hw : 0 < w) {m n : Nat} (h : m % w = 0) : wordSize w (m + n) = wordSize w m + wordSize w n := by
  have ed := Nat.div_add_mod m w
  rw [wordSize_exact hw h]
  unfold wordSize
  rw [h, Nat.add_zero] at ed
  generalize m / w = c at *
  rw [← ed]
  by_cases hn : n = 0
  · subst hn
    rw [Nat.add_zero, Nat.zero_add, Nat.div_eq_of_lt (a := w - 1) (by omega),
      show w * c + w - 1 = w * c + (w - 1) from by omega, Nat.mul_add_div hw, Nat.div_eq_of_lt (by omega)]
  · rw [show w * c + n + w - 1 = w * c + (n + w - 1) from by omega, Nat.mul_add_div hw]

/-- `append` that does not throw; `other = none`: the bitset itself -/
theorem append_eq (hw : 0 < w) {b : Bits w} {other : Option (Bits w)} {xs ys} (env : Env w) (h : Shows b xs)
    (ho : ∀ o, other = some o → Shows o ys) (hs : other = none → ys = xs ∧ (xs = [] ∨ xs.length % w ≠ 0))
    (hn : Spec.Fits w (xs.length + ys.length))
    (hr : wordSize w xs.length < wordSize w (xs.length + ys.length) → env.room (wordSize w (xs.length + ys.length)) = true) :
    ∃ b', append env other b = .ok () b' ∧ Shows b' (xs ++ ys) := by
  have ho' : Shows (other.getD b) ys := by
    cases other with
    | none => rw [(hs rfl).1]; exact h
    | some o => exact ho o rfl
  have hlt : xs.length + ys.length < 2 ^ 64 := by unfold Spec.Fits at hn; omega
  unfold append
  simp only [M.bind_apply, M.get_apply, empty_eq hw ho']
  by_cases hy : ys = []
  · subst hy
    exact ⟨b, by simp, by simpa using h⟩
  have he : ys.isEmpty = false := by simp [hy]
  have hypos : 0 < ys.length := List.length_pos_iff.2 hy
  simp only [he, Bool.false_eq_true, if_false, h.size]
  by_cases hp : xs.length % w = 0
  · simp only [hp, if_true]
    cases other with
    | none =>
      rcases (hs rfl).2 with e | e
      · rw [(hs rfl).1] at hy; exact absurd e hy
      · exact absurd hp e
    | some o =>
      have h2 := append_lucky hw h (ho o rfl) hp
      have hro : env.room (b.words.length + o.words.length) = true := by
        rw [h.len, (ho o rfl).len, ← wordSize_add hw hp]
        apply hr
        rw [wordSize_add hw hp]
        have := wordSize_zero_iff hw (n := ys.length)
        omega
      refine ⟨⟨b.words ++ o.words, b.size + o.size⟩, ?_, h2⟩
      simp [hro, h.size, (ho o rfl).size, Nat.mod_eq_of_lt hlt]
  · simp only [hp, if_false]
    obtain ⟨b1, e1, e2, e3, e4⟩ := resize_bits hw h env hn hr
    rw [ho'.size, Nat.mod_eq_of_lt hlt]
    simp only [M.bind_apply, e1, M.mem]
    have ed := Nat.div_add_mod xs.length w
    rw [Nat.mul_comm] at ed
    have hm := Nat.mod_lt xs.length hw
    have hback : b.words.length - 1 = xs.length / w := by
      rw [h.len, wordSize_last hw hp]; exact Nat.add_sub_cancel ..
    have hBL : xs.length / w < wordSize w (xs.length + ys.length) := by
      rw [wordSize_le_iff hw]; omega
    have hBx : xs.length / w < wordSize w xs.length := by
      rw [wordSize_le_iff hw]; omega
    obtain ⟨ws', f1, f2, f3, f4⟩ := appendLoop_eq (src := other.map Bits.words) (L := wordSize w (xs.length + ys.length)) hw ed.symm
      (by omega) hm (wordSize_ge hw _) (by
        intro ws hl hx
        cases other with
        | none =>
          simp only [Option.map_none, Option.getD_none, (hs rfl).1]
          refine ⟨?_, hx⟩
          rw [hl]
          have := wordSize_ge hw (xs.length + ys.length)
          omega
        | some o =>
          simp only [Option.map_some, Option.getD_some]
          refine ⟨?_, (ho o rfl).bits⟩
          rw [(ho o rfl).len]; exact wordSize_ge hw _) (b1.words.length + 1) b1.words 0 e3 hBL
        (by rw [e3]; generalize xs.length / w = a; omega)
        (by
          intro q r hr hq
          rw [e4 q r hr (lt_wordSize_of hw (n := xs.length + ys.length) (r := r) (by omega)), dif_pos hq])
        (by intro q r _ hq; omega)
        (by
          intro r hr1 hr2
          rw [Nat.add_zero, e4 _ r hr2 hBL, dif_neg (by omega), if_pos hBx])
    rw [hback]
    have f1' : appendLoop (other.map Bits.words) (xs.length % w) (b1.words.length + 1) b1.words (xs.length / w) 0 = some ws' := f1
    rw [f1']
    refine ⟨_, rfl, by simp [f2], by simp [e2], ?_⟩
    intro q r hr hq
    simp only [List.length_append] at hq
    show bit ws' q r = _
    rw [List.getElem_append]
    by_cases hx : q * w + r < xs.length
    · rw [dif_pos hx, f3 q r hr hx]
    · rw [dif_neg hx]
      have hqB : xs.length / w ≤ q := by
        by_contra hc
        have h5 : (q + 1) * w ≤ xs.length / w * w := Nat.mul_le_mul_right w (Nat.lt_of_not_le hc)
        rw [Nat.add_mul] at h5
        omega
      have h6 : xs.length / w * w ≤ q * w := Nat.mul_le_mul_right w hqB
      by_cases hr3 : xs.length % w ≤ r
      · have e : q * w + r - xs.length = (q - xs.length / w) * w + (r - xs.length % w) := by
          rw [Nat.sub_mul]; omega
        simp only [e]
        rw [← f4 (q - xs.length / w) (r - xs.length % w) (by omega) (by omega)]
        unfold bitFrom
        rw [if_pos (by omega)]
        congr 1
        · generalize xs.length / w = a at *; omega
        · omega
      · have hqB2 : xs.length / w ≠ q := by
          intro e
          rw [e] at ed; omega
        have h7 : (xs.length / w + 1) * w ≤ q * w := Nat.mul_le_mul_right w (Nat.lt_of_le_of_ne hqB hqB2)
        have e : q * w + r - xs.length = (q - xs.length / w - 1) * w + (w + r - xs.length % w) := by
          rw [Nat.sub_mul, Nat.sub_mul]; rw [Nat.add_mul] at h7; omega
        simp only [e]
        rw [← f4 (q - xs.length / w - 1) (w + r - xs.length % w) (by omega) (by omega)]
        unfold bitFrom
        rw [if_neg (by omega)]
        congr 1
        · generalize xs.length / w = a at *; omega
        · omega

/-- `append` in the lucky case, if the buffer fails -/
theorem append_throws (hw : 0 < w) {b o : Bits w} {xs ys} (env : Env w) (h : Shows b xs) (ho : Shows o ys)
    (hp : xs.length % w = 0)
    (hr : wordSize w xs.length < wordSize w (xs.length + ys.length))
    (hr2 : env.room (wordSize w (xs.length + ys.length)) = false) :
    append env (some o) b = .throw env.exc b := by
  have hy : ys ≠ [] := by
    rintro rfl; simp at hr
  have he : ys.isEmpty = false := by simp [hy]
  unfold append
  rw [wordSize_add hw hp] at hr2
  simp [empty_eq hw ho, he, h.size, hp, h.len, ho.len, hr2]

theorem words_isEmpty {b : Bits w} {xs} (h : Shows b xs) : b.words = [] ↔ ¬ 0 < wordSize w xs.length := by
  rw [← List.length_eq_zero_iff, h.len]; omega

theorem clone_eq (hw : 0 < w) (env : Env w) {b : Bits w} {xs} (h : Shows b xs) :
    clone env b = if Spec.short env 0 (Spec.words w xs.length) then none else some b := by
  unfold clone
  rw [words_eq hw, h.len]
  have := words_isEmpty h
  by_cases hc : Spec.short env 0 (wordSize w xs.length) = true
  · rw [if_pos hc, if_pos]
    rw [short_true] at hc
    exact ⟨fun e => this.1 e hc.1, hc.2⟩
  · rw [if_neg hc, if_neg]
    rintro ⟨c1, c2⟩
    apply hc
    rw [short_true]
    refine ⟨?_, c2⟩
    by_contra hd
    exact c1 (this.2 hd)

end Itlib.BitBuf
