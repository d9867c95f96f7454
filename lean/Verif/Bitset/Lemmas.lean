import Verif.Bitset.Spec

namespace Itlib.Bitset

variable {w : Nat}

/-- bit `r` of word `q` -/
def bit (ws : List (BitVec w)) (q r : Nat) : Bool := (ws[q]?.getD 0).getLsbD r

theorem bit_of_getElem? {ws : List (BitVec w)} {q : Nat} {x} (h : ws[q]? = some x) (r) : bit ws q r = x.getLsbD r := by
  simp [bit, h]

theorem bit_out {ws : List (BitVec w)} {q : Nat} (h : ws.length ≤ q) (r) : bit ws q r = false := by
  simp [bit, List.getElem?_eq_none h]

theorem bit_set {ws : List (BitVec w)} {k : Nat} (hk : k < ws.length) (x q r) :
    bit (ws.set k x) q r = if q = k then x.getLsbD r else bit ws q r := by
  unfold bit
  by_cases h : q = k
  · subst h; simp [hk]
  · simp [h, List.getElem?_set, Ne.symm h]

theorem getLsbD_wordMask {i r : Nat} (hw : 0 < w) (hr : r < w) :
    (wordMask w i).getLsbD r = decide (r = i % w) := by
  have := Nat.mod_lt i hw
  simp only [wordMask, BitVec.getLsbD_shiftLeft, BitVec.getLsbD_one]
  by_cases h : r = i % w
  · simp [h, this]; omega
  · simp [h]; omega

theorem getLsbD_lowMask {p r : Nat} (hp : p < w) (hr : r < w) :
    (wordMask w p - 1#w).getLsbD r = decide (r < p) := by
  have h1 : wordMask w p - 1#w = BitVec.ofNat w (2 ^ p - 1) := by
    apply BitVec.eq_of_toNat_eq
    have h2 : 1 < 2 ^ w := by
      exact Nat.one_lt_two_pow (by omega)
    have h3 : 2 ^ p < 2 ^ w := Nat.pow_lt_pow_right (by omega) hp
    have h4 : 0 < 2 ^ p := Nat.two_pow_pos p
    simp [wordMask, BitVec.toNat_sub, BitVec.toNat_shiftLeft, Nat.mod_eq_of_lt hp, Nat.shiftLeft_eq, Nat.mod_eq_of_lt h2, Nat.mod_eq_of_lt h3]
    rw [Nat.mod_eq_of_lt (a := 2 ^ p - 1) (by omega)]
    rw [show 2 ^ w - 1 + 2 ^ p = 2 ^ p - 1 + 2 ^ w from by omega]
    rw [Nat.add_mod_right, Nat.mod_eq_of_lt (by omega)]
  rw [h1, BitVec.getLsbD_ofNat]
  simp [hr, Nat.testBit_two_pow_sub_one]

theorem wordSize_le_iff (hw : 0 < w) (n k : Nat) : k < wordSize w n ↔ k * w < n := by
  unfold wordSize
  rw [← Nat.add_one_le_iff, Nat.le_div_iff_mul_le hw, Nat.add_mul]
  omega

theorem wordSize_mul (hw : 0 < w) (k : Nat) : wordSize w (k * w) = k := by
  unfold wordSize
  rw [show k * w + w - 1 = w - 1 + k * w from by omega, Nat.add_mul_div_right _ _ hw, Nat.div_eq_of_lt (by omega)]
  omega

theorem wordSize_ge (hw : 0 < w) (n : Nat) : n ≤ wordSize w n * w := by
  by_contra h
  have := (wordSize_le_iff hw n (wordSize w n)).2 (by omega)
  omega

theorem wordSize_zero_iff (hw : 0 < w) {n : Nat} : wordSize w n = 0 ↔ n = 0 := by
  have := wordSize_le_iff hw n 0
  omega

/-- `q * w + r` for the last word -/
theorem wordSize_last (hw : 0 < w) {n : Nat} (hn : n % w ≠ 0) : wordSize w n = n / w + 1 := by
  have h := Nat.div_add_mod n w
  have := Nat.mod_lt n hw
  rw [Nat.mul_comm] at h
  have h1 := (wordSize_le_iff hw n (n / w)).2 (by omega)
  have h2 : ¬ n / w + 1 < wordSize w n := by
    rw [wordSize_le_iff hw, Nat.add_mul]; omega
  omega

theorem wordSize_exact (hw : 0 < w) {n : Nat} (hn : n % w = 0) : wordSize w n = n / w := by
  have h := Nat.div_add_mod n w
  rw [hn, Nat.mul_comm] at h
  have e := wordSize_mul hw (n / w)
  rw [show n / w * w = n from by omega] at e
  exact e

/-- The bitset shows the booleans `xs`. -/
structure Shows (b : Bits w) (xs : List Bool) : Prop where
  len : b.words.length = wordSize w xs.length
  size : b.size = xs.length
  bits : ∀ q r (_ : r < w) (h : q * w + r < xs.length), bit b.words q r = xs[q * w + r]

theorem Shows.at {b : Bits w} {xs} (hw : 0 < w) (h : Shows b xs) {i : Nat} (hi : i < xs.length) :
    bit b.words (i / w) (i % w) = xs[i] := by
  have e := Nat.div_add_mod i w
  rw [Nat.mul_comm] at e
  rw [h.bits (i / w) (i % w) (Nat.mod_lt _ hw) (by omega)]
  congr

theorem div_lt_of_lt (hw : 0 < w) {i n : Nat} (h : i < n) : i / w < wordSize w n := by
  rw [wordSize_le_iff hw]
  have e := Nat.div_mul_le_self i w
  omega

theorem split_unique (hw : 0 < w) {q r i : Nat} (hr : r < w) : i = q * w + r ↔ i / w = q ∧ i % w = r := by
  constructor
  · intro h
    subst h
    rw [Nat.mul_comm]
    exact ⟨by rw [Nat.mul_add_div hw, Nat.div_eq_of_lt hr]; rfl, by rw [Nat.mul_add_mod, Nat.mod_eq_of_lt hr]⟩
  · rintro ⟨rfl, rfl⟩
    have e := Nat.div_add_mod i w
    rw [Nat.mul_comm] at e
    omega

/-! ## single bits -/

theorem and_mask_ne_zero (hw : 0 < w) (x : BitVec w) (i : Nat) :
    ((x &&& wordMask w i) != 0) = x.getLsbD (i % w) := by
  have hm := Nat.mod_lt i hw
  by_cases h : x.getLsbD (i % w)
  · rw [h]
    simp only [bne_iff_ne]
    intro h0
    have := congrArg (·.getLsbD (i % w)) h0
    simp [getLsbD_wordMask hw hm, h] at this
  · have h' : x.getLsbD (i % w) = false := by simpa using h
    rw [h']
    simp only [bne_eq_false_iff_eq]
    apply BitVec.eq_of_getLsbD_eq
    intro r hr
    simp [getLsbD_wordMask hw hr]
    intro hc e; subst e
    exact absurd hc h

theorem test_eq {b : Bits w} {xs} (hw : 0 < w) (h : Shows b xs) (i : Nat) (hi : i < xs.length) :
    test b i = some xs[i] := by
  have hl : i / w < b.words.length := by rw [h.len]; exact div_lt_of_lt hw hi
  unfold test
  rw [List.getElem?_eq_getElem hl]
  simp only [Option.bind_eq_bind, Option.bind_some, Option.some.injEq]
  rw [and_mask_ne_zero hw, ← h.at hw hi, bit_of_getElem? (List.getElem?_eq_getElem hl)]

theorem putWord_eq {b : Bits w} {k : Nat} (f : BitVec w → BitVec w) (hk : k < b.words.length) :
    ∃ b', putWord b k f = some b' ∧ b'.size = b.size ∧ b'.words.length = b.words.length ∧
      ∀ q r, bit b'.words q r = if q = k then (f b.words[k]).getLsbD r else bit b.words q r := by
  refine ⟨⟨b.words.set k (f b.words[k]), b.size⟩, ?_, rfl, by simp, fun q r => bit_set hk _ _ _⟩
  simp [putWord, List.getElem?_eq_getElem hk]

/-- changing a single bit of a word -/
theorem put_bit {b : Bits w} {xs} (hw : 0 < w) (h : Shows b xs) (i : Nat) (hi : i < xs.length) (f : BitVec w → BitVec w) (v : Bool)
    (hf : ∀ x : BitVec w, x.getLsbD (i % w) = xs[i] → ∀ r < w, (f x).getLsbD r = if r = i % w then v else x.getLsbD r) :
    ∃ b', putWord b (i / w) f = some b' ∧ Shows b' (xs.set i v) := by
  have hl : i / w < b.words.length := by rw [h.len]; exact div_lt_of_lt hw hi
  obtain ⟨b', e, e1, e2, e3⟩ := putWord_eq f hl
  refine ⟨b', e, by rw [e2, h.len, List.length_set], by rw [e1, h.size, List.length_set], ?_⟩
  intro q r hr hq
  rw [List.length_set] at hq
  have hx : (b.words[i / w]).getLsbD (i % w) = xs[i] := by
    rw [← h.at hw hi, bit_of_getElem? (List.getElem?_eq_getElem hl)]
  rw [e3, List.getElem_set]
  by_cases hq' : q = i / w
  · rw [if_pos hq', hf _ hx r hr]
    by_cases hr' : r = i % w
    · rw [if_pos hr', if_pos ((split_unique hw hr).2 ⟨hq'.symm, hr'.symm⟩)]
    · rw [if_neg hr', if_neg (fun c => hr' ((split_unique hw hr).1 c).2.symm)]
      rw [← h.bits q r hr hq]
      subst hq'
      rw [bit_of_getElem? (List.getElem?_eq_getElem hl)]
  · rw [if_neg hq', if_neg (fun c => hq' ((split_unique hw hr).1 c).1.symm), h.bits q r hr hq]

theorem set_eq {b : Bits w} {xs} (hw : 0 < w) (h : Shows b xs) (i : Nat) (hi : i < xs.length) :
    ∃ b', set b i = some b' ∧ Shows b' (xs.set i true) := by
  apply put_bit hw h i hi
  intro x _ r hr
  simp only [BitVec.getLsbD_or, getLsbD_wordMask hw hr]
  by_cases e : r = i % w <;> simp [e]

theorem reset_eq {b : Bits w} {xs} (hw : 0 < w) (h : Shows b xs) (i : Nat) (hi : i < xs.length) :
    ∃ b', reset b i = some b' ∧ Shows b' (xs.set i false) := by
  apply put_bit hw h i hi
  intro x _ r hr
  simp only [BitVec.getLsbD_and, BitVec.getLsbD_not, getLsbD_wordMask hw hr]
  by_cases e : r = i % w <;> simp [e, hr]

theorem setTo_eq {b : Bits w} {xs} (hw : 0 < w) (h : Shows b xs) (i : Nat) (hi : i < xs.length) (v : Bool) :
    ∃ b', setTo b i v = some b' ∧ Shows b' (xs.set i v) := by
  cases v
  · exact reset_eq hw h i hi
  · exact set_eq hw h i hi

theorem flip_eq {b : Bits w} {xs} (hw : 0 < w) (h : Shows b xs) (i : Nat) (hi : i < xs.length) :
    ∃ b', flip b i = some b' ∧ Shows b' (xs.set i (!xs[i])) := by
  apply put_bit hw h i hi
  intro x hx r hr
  simp only [BitVec.getLsbD_xor, getLsbD_wordMask hw hr]
  by_cases e : r = i % w <;> simp [e, hx]

/-! ## size -/

theorem empty_eq {b : Bits w} {xs} (hw : 0 < w) (h : Shows b xs) : empty b = xs.isEmpty := by
  have h1 := h.len
  have h2 := wordSize_zero_iff hw (n := xs.length)
  rw [Bool.eq_iff_iff]
  simp only [empty, List.isEmpty_iff, ← List.length_eq_zero_iff]
  omega

theorem bit_resizeWords (ws : List (BitVec w)) (n q r : Nat) :
    bit (resizeWords ws n) q r = if q < n then bit ws q r else false := by
  unfold resizeWords bit
  by_cases h : q < n
  · rw [if_pos h]
    by_cases h2 : q < ws.length
    · rw [List.getElem?_append_left (by simp; omega), List.getElem?_take_of_lt h]
    · rw [List.getElem?_append_right (by simp; omega), List.getElem?_eq_none (l := ws) (by omega)]
      rw [List.getElem?_replicate]
      split <;> simp
  · rw [if_neg h, List.getElem?_eq_none (by simp [List.length_take]; omega)]
    simp

theorem length_resizeWords (ws : List (BitVec w)) (n : Nat) : (resizeWords ws n).length = n := by
  simp [resizeWords, List.length_take]; omega

/-- `resize` with the information that `append` needs: all bits from the old size on are zero -/
theorem resize_bits {b : Bits w} {xs} (hw : 0 < w) (h : Shows b xs) (n : Nat) :
    ∃ b', resize b n = some b' ∧ b'.size = n ∧ b'.words.length = wordSize w n ∧
      ∀ q r, r < w → q < wordSize w n → bit b'.words q r = if h : q * w + r < xs.length then xs[q * w + r] else false := by
  unfold resize
  rw [h.size]
  by_cases hp : xs.length % w = 0
  · simp only [hp, ne_eq, not_true_eq_false, if_false, Option.bind_eq_bind, Option.bind_some]
    refine ⟨_, rfl, rfl, by simp [length_resizeWords], ?_⟩
    intro q r hr hq
    rw [bit_resizeWords, if_pos hq]
    by_cases hx : q * w + r < xs.length
    · rw [dif_pos hx, h.bits q r hr hx]
    · rw [dif_neg hx]
      apply bit_out
      rw [h.len, wordSize_exact hw hp]
      have e := Nat.div_add_mod xs.length w
      rw [hp, Nat.mul_comm] at e
      by_contra hc
      have : (q + 1) * w ≤ xs.length / w * w := Nat.mul_le_mul_right w (by omega)
      rw [Nat.add_mul] at this
      omega
  · have hlen : b.words.length = xs.length / w + 1 := by rw [h.len, wordSize_last hw hp]
    have hne : b.words ≠ [] := by intro c; rw [c] at hlen; simp at hlen
    have hpos : 0 < b.words.length := List.length_pos_iff.2 hne
    obtain ⟨b', e, e1, e2, e3⟩ := putWord_eq (b := b) (k := b.words.length - 1)
      (fun x => x &&& (wordMask w (xs.length % w) - 1#w)) (by omega)
    simp only [hp, hne, ne_eq, not_false_eq_true, if_true, if_false, Option.bind_eq_bind, e, Option.bind_some]
    refine ⟨_, rfl, rfl, by simp [length_resizeWords], ?_⟩
    intro q r hr hq
    rw [bit_resizeWords, if_pos hq, e3]
    have ed := Nat.div_add_mod xs.length w
    rw [Nat.mul_comm] at ed
    have hm := Nat.mod_lt xs.length hw
    by_cases hq' : q = b.words.length - 1
    · rw [if_pos hq']
      have hq2 : q = xs.length / w := by omega
      simp only [BitVec.getLsbD_and, getLsbD_lowMask hm hr]
      by_cases hx : q * w + r < xs.length
      · rw [dif_pos hx, ← h.bits q r hr hx]
        have : r < xs.length % w := by rw [hq2] at hx; omega
        simp only [this, decide_true, Bool.and_true]
        rw [bit_of_getElem?]
        simp only [hq']
        exact List.getElem?_eq_getElem (by omega)
      · rw [dif_neg hx]
        have : ¬ r < xs.length % w := by rw [hq2] at hx; omega
        simp [this]
    · rw [if_neg hq']
      by_cases hx : q * w + r < xs.length
      · rw [dif_pos hx, h.bits q r hr hx]
      · rw [dif_neg hx]
        apply bit_out
        by_contra hc
        have : (q + 1) * w ≤ xs.length / w * w := Nat.mul_le_mul_right w (by omega)
        rw [Nat.add_mul] at this
        omega

theorem lt_wordSize_of {q r n : Nat} (hw : 0 < w) (h : q * w + r < n) : q < wordSize w n := by
  rw [wordSize_le_iff hw]; omega

theorem resize_eq {b : Bits w} {xs} (hw : 0 < w) (h : Shows b xs) (n : Nat) :
    ∃ b', resize b n = some b' ∧ Shows b' (xs.take n ++ List.replicate (n - xs.length) false) := by
  obtain ⟨b', e, e1, e2, e3⟩ := resize_bits hw h n
  have hl : (xs.take n ++ List.replicate (n - xs.length) false).length = n := by simp; omega
  refine ⟨b', e, by rw [e2, hl], by rw [e1, hl], ?_⟩
  intro q r hr hq
  rw [hl] at hq
  rw [e3 q r hr (lt_wordSize_of hw hq), List.getElem_append]
  by_cases hx : q * w + r < xs.length
  · rw [dif_pos hx, dif_pos (by simp; omega), List.getElem_take]
  · rw [dif_neg hx, dif_neg (by simp; omega), List.getElem_replicate]

theorem pushBack_eq {b : Bits w} {xs} (hw : 0 < w) (h : Shows b xs) (v : Bool) :
    ∃ b', pushBack b v = some b' ∧ Shows b' (xs ++ [v]) := by
  obtain ⟨b1, e, h1⟩ := resize_eq hw h (b.size + 1)
  have hl : xs.take (b.size + 1) ++ List.replicate (b.size + 1 - xs.length) false = xs ++ [false] := by
    rw [h.size, List.take_of_length_le (by omega)]; simp
  rw [hl] at h1
  obtain ⟨b2, e2, h2⟩ := setTo_eq hw h1 (b1.size - 1) (by rw [h1.size]; simp) v
  refine ⟨b2, ?_, ?_⟩
  · simp only [pushBack, e, Option.bind_eq_bind, Option.bind_some, e2]
  · rw [h1.size] at h2
    simpa using h2

/-! ## words -/

theorem length_bitsOf (ws : List (BitVec w)) : (Spec.bitsOf ws).length = ws.length * w := by
  induction ws with
  | nil => simp [Spec.bitsOf]
  | cons x ws ih =>
    simp only [Spec.bitsOf, List.flatMap_cons, List.length_append, List.length_map, List.length_range, List.length_cons] at ih ⊢
    rw [ih, Nat.add_mul]; omega

theorem getElem_bitsOf (ws : List (BitVec w)) (q r : Nat) (hr : r < w) (h : q * w + r < (Spec.bitsOf ws).length) :
    (Spec.bitsOf ws)[q * w + r] = bit ws q r := by
  induction ws generalizing q with
  | nil => simp [Spec.bitsOf] at h
  | cons x ws ih =>
    have e : Spec.bitsOf (x :: ws) = (List.range w).map x.getLsbD ++ Spec.bitsOf ws := rfl
    simp only [e]
    rw [List.getElem_append]
    rcases q with _ | q
    · rw [dif_pos (by simp; omega)]
      simp [bit]
    · rw [dif_neg (by simp [Nat.add_mul]; omega)]
      have hl : q * w + r < (Spec.bitsOf ws).length := by
        rw [length_bitsOf] at h ⊢
        rw [List.length_cons, Nat.add_mul, Nat.add_mul] at h
        omega
      rw [show bit (x :: ws) (q + 1) r = bit ws q r from by simp [bit], ← ih q hl]
      congr 1
      simp [Nat.add_mul]; omega

theorem new_eq (hw : 0 < w) (n : Nat) (value : BitVec w) :
    Shows (new n value) ((Spec.bitsOf (List.replicate n value)).take n) := by
  have hl : ((Spec.bitsOf (List.replicate n value)).take n).length = n := by
    rw [List.length_take, length_bitsOf, List.length_replicate]
    have := Nat.mul_le_mul_left n hw
    omega
  refine ⟨by rw [hl]; simp [new], by rw [hl]; rfl, ?_⟩
  intro q r hr hq
  rw [hl] at hq
  have hq2 := lt_wordSize_of hw hq
  have : q * 1 ≤ q * w := Nat.mul_le_mul_left q hw
  rw [List.getElem_take, getElem_bitsOf _ q r hr]
  simp only [bit, new, List.getElem?_replicate, hq2, if_true]
  rw [if_pos (by omega)]

theorem assign_eq (hw : 0 < w) (ws : List (BitVec w)) : Shows (assign ws) (Spec.bitsOf ws) := by
  refine ⟨by rw [length_bitsOf]; exact (wordSize_mul hw _).symm, by rw [length_bitsOf]; rfl, ?_⟩
  intro q r hr hq
  rw [getElem_bitsOf _ q r hr hq]; rfl

end Itlib.Bitset
