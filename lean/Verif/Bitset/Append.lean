import Verif.Bitset.Lemmas

namespace Itlib.Bitset

variable {w : Nat}

/-! ## all, any -/

theorem promoted_eq (x : BitVec w) :
    (x.setWidth (max w 32) != ~~~ (0#(max w 32))) = !decide (32 ≤ w ∧ ∀ r < w, x.getLsbD r = true) := by
  rw [Bool.eq_iff_iff]
  simp only [bne_iff_ne, ne_eq, Bool.not_eq_true', decide_eq_false_iff_not]
  apply not_congr
  constructor
  · intro h
    have hb : ∀ r, r < max w 32 → x.getLsbD r = true := by
      intro r hr
      have := congrArg (·.getLsbD r) h
      simp only [BitVec.getLsbD_setWidth, BitVec.getLsbD_not, BitVec.getLsbD_zero, hr, decide_true, Bool.true_and, Bool.not_false] at this
      exact this
    refine ⟨?_, fun r hr => hb r (by omega)⟩
    by_contra hc
    have := hb w (by omega)
    simp at this
  · rintro ⟨h, h2⟩
    apply BitVec.eq_of_getLsbD_eq
    intro r hr
    simp only [BitVec.getLsbD_setWidth, BitVec.getLsbD_not, BitVec.getLsbD_zero, hr, decide_true, Bool.true_and, Bool.not_false]
    exact h2 r (by omega)

open scoped Classical in
theorem allLoop_eq (ws : List (BitVec w)) : ∀ f k, k + f ≤ ws.length →
    allLoop ws k f = some (decide (∀ q, k ≤ q → q < k + f → 32 ≤ w ∧ ∀ r < w, bit ws q r = true))
  | 0, k, _ => by simp only [allLoop]; congr 1; symm; rw [decide_eq_true_eq]; intros; omega
  | f+1, k, h => by
    have hk : k < ws.length := by omega
    simp only [allLoop, List.getElem?_eq_getElem hk, Option.bind_eq_bind, Option.bind_some, promoted_eq]
    have hb : ∀ r, bit ws k r = ws[k].getLsbD r := bit_of_getElem? (List.getElem?_eq_getElem hk)
    by_cases hx : 32 ≤ w ∧ ∀ r < w, ws[k].getLsbD r = true
    · rw [decide_eq_true hx]
      simp only [Bool.not_true, Bool.false_eq_true, if_false]
      rw [allLoop_eq ws f (k+1) (by omega)]
      congr 1
      rw [decide_eq_decide]
      constructor
      · intro H q h1 h2
        by_cases e : q = k
        · subst e; exact ⟨hx.1, fun r hr => by rw [hb]; exact hx.2 r hr⟩
        · exact H q (by omega) (by omega)
      · intro H q h1 h2
        exact H q (by omega) (by omega)
    · rw [decide_eq_false hx]
      simp only [Bool.not_false, if_true, Option.some.injEq]
      symm
      rw [decide_eq_false_iff_not]
      intro H
      apply hx
      have := H k (by omega) (by omega)
      exact ⟨this.1, fun r hr => by rw [← hb]; exact this.2 r hr⟩

theorem tail_all (x : BitVec w) (p : Nat) (hp : p < w) :
    ((x &&& (wordMask w p - 1#w)) != wordMask w p - 1#w) = !decide (∀ r < p, x.getLsbD r = true) := by
  rw [Bool.eq_iff_iff]
  simp only [bne_iff_ne, ne_eq, Bool.not_eq_true', decide_eq_false_iff_not]
  apply not_congr
  constructor
  · intro h r hr
    have := congrArg (·.getLsbD r) h
    simp only [BitVec.getLsbD_and, getLsbD_lowMask hp (show r < w by omega), hr, decide_true, Bool.and_true] at this
    exact this
  · intro h
    apply BitVec.eq_of_getLsbD_eq
    intro r hr
    simp only [BitVec.getLsbD_and, getLsbD_lowMask hp hr]
    by_cases e : r < p
    · simp [e, h r e]
    · simp [e]

theorem tail_any (x : BitVec w) (p : Nat) (hp : p < w) :
    ((x &&& (wordMask w p - 1#w)) != 0) = decide (∃ r < p, x.getLsbD r = true) := by
  rw [Bool.eq_iff_iff]
  simp only [bne_iff_ne, ne_eq, decide_eq_true_eq]
  constructor
  · intro h
    by_contra hc
    apply h
    apply BitVec.eq_of_getLsbD_eq
    intro r hr
    simp only [BitVec.getLsbD_and, getLsbD_lowMask hp hr]
    by_cases e : r < p
    · have : x.getLsbD r = false := by
        by_contra hx
        exact hc ⟨r, e, by simpa using hx⟩
      simp [e, this]
    · simp [e]
  · rintro ⟨r, hr, hx⟩ h
    have := congrArg (·.getLsbD r) h
    simp [BitVec.getLsbD_and, getLsbD_lowMask hp (show r < w by omega), hr, hx] at this

open scoped Classical in
theorem anyLoop_eq (ws : List (BitVec w)) : ∀ f k, k + f ≤ ws.length →
    anyLoop ws k f = some (decide (∃ q r, k ≤ q ∧ q < k + f ∧ r < w ∧ bit ws q r = true))
  | 0, k, _ => by
    simp only [anyLoop]; congr 1; symm; rw [decide_eq_false_iff_not]
    rintro ⟨q, r, h1, h2, _⟩; omega
  | f+1, k, h => by
    have hk : k < ws.length := by omega
    simp only [anyLoop, List.getElem?_eq_getElem hk, Option.bind_eq_bind, Option.bind_some]
    have hb : ∀ r, bit ws k r = ws[k].getLsbD r := bit_of_getElem? (List.getElem?_eq_getElem hk)
    by_cases hx : ws[k] = 0
    · simp only [hx, bne_self_eq_false, Bool.false_eq_true, if_false]
      rw [anyLoop_eq ws f (k+1) (by omega)]
      congr 1
      rw [decide_eq_decide]
      constructor
      · rintro ⟨q, r, h1, h2, h3⟩
        exact ⟨q, r, by omega, by omega, h3⟩
      · rintro ⟨q, r, h1, h2, h3, h4⟩
        by_cases e : q = k
        · subst e; rw [hb, hx] at h4; simp at h4
        · exact ⟨q, r, by omega, by omega, h3, h4⟩
    · simp only [bne_iff_ne, ne_eq, hx, not_false_eq_true, if_true, Option.some.injEq]
      symm
      rw [decide_eq_true_eq]
      by_contra hc
      apply hx
      apply BitVec.eq_of_getLsbD_eq
      intro r hr
      by_contra hd
      have hd : ws[k].getLsbD r = true := by simpa using hd
      exact hc ⟨k, r, by omega, by omega, hr, by rw [hb]; exact hd⟩

open scoped Classical in
theorem all_eq {b : Bits w} {xs} (hw : 0 < w) (h : Shows b xs) :
    all b = some (!xs.isEmpty && xs.all id && (decide (32 ≤ w) || decide (xs.length < w))) := by
  unfold all
  rw [empty_eq hw h]
  by_cases hx : xs = []
  · subst hx; simp
  have he : xs.isEmpty = false := by simp [hx]
  simp only [he, Bool.false_eq_true, if_false, h.size]
  have ed := Nat.div_add_mod xs.length w
  rw [Nat.mul_comm] at ed
  have hm := Nat.mod_lt xs.length hw
  have hlen := h.len
  have hle : xs.length / w ≤ b.words.length := by
    rw [hlen]
    by_cases hp : xs.length % w = 0
    · rw [wordSize_exact hw hp]; exact Nat.le_refl _
    · rw [wordSize_last hw hp]; exact Nat.le_succ _
  have hall : (xs.all id = true) ↔ ∀ i (hi : i < xs.length), xs[i] = true := by
    simp [List.all_eq_true, List.mem_iff_getElem]
  have hlt : xs.length / w = 0 ↔ xs.length < w := by
    rw [Nat.div_eq_zero_iff]; omega
  rw [allLoop_eq _ _ _ (by omega)]
  simp only [Option.bind_eq_bind, Option.bind_some, Nat.zero_le, true_imp_iff, Nat.zero_add]
  by_cases hloop : ∀ q, q < xs.length / w → 32 ≤ w ∧ ∀ r < w, bit b.words q r = true
  · rw [decide_eq_true hloop]
    simp only [Bool.not_true, Bool.false_eq_true, if_false]
    have hn : 32 ≤ w ∨ xs.length < w := by
      by_contra hc
      exact hc (.inl (hloop 0 (Nat.pos_of_ne_zero fun e => hc (.inr (hlt.1 e)))).1)
    have hn' : (decide (32 ≤ w) || decide (xs.length < w)) = true := by simpa using hn
    rw [hn']
    by_cases hp : xs.length % w = 0
    · have h1 : b.words.length = xs.length / w := by rw [hlen, wordSize_exact hw hp]
      simp only [h1, ne_eq, not_true_eq_false, if_false]
      have : xs.all id = true := by
        rw [hall]
        intro i hi
        rw [← h.at hw hi]
        refine (hloop _ ?_).2 _ (Nat.mod_lt _ hw)
        rw [← h1, hlen]; exact div_lt_of_lt hw hi
      simp [this]
    · have h1 : b.words.length = xs.length / w + 1 := by rw [hlen, wordSize_last hw hp]
      rw [if_pos (by rw [h1]; exact (Nat.succ_ne_self _).symm)]
      have hlast : b.words.getLast? = some (b.words[xs.length / w]'(by rw [h1]; exact Nat.lt_succ_self _)) := by
        have h1' : b.words.length - 1 = xs.length / w := by rw [h1]; exact Nat.add_sub_cancel ..
        rw [List.getLast?_eq_getElem?, h1']; exact List.getElem?_eq_getElem _
      rw [hlast]
      simp only [Option.bind_some]
      rw [tail_all _ _ hm]
      have hb : ∀ r, bit b.words (xs.length / w) r = _ := bit_of_getElem? (List.getElem?_eq_getElem (by rw [h1]; exact Nat.lt_succ_self _))
      by_cases ht : ∀ r < xs.length % w, (b.words[xs.length / w]).getLsbD r = true
      · rw [decide_eq_true ht]
        have : xs.all id = true := by
          rw [hall]
          intro i hi
          rw [← h.at hw hi]
          by_cases hq : i / w < xs.length / w
          · exact (hloop _ hq).2 _ (Nat.mod_lt _ hw)
          · have h3 := div_lt_of_lt hw hi
            rw [wordSize_last hw hp] at h3
            have h4 : i / w = xs.length / w := Nat.le_antisymm (Nat.le_of_lt_succ h3) (Nat.le_of_not_lt hq)
            rw [h4, hb]
            apply ht
            have e := Nat.div_add_mod i w
            rw [Nat.mul_comm, h4] at e
            omega
        simp [this]
      · rw [decide_eq_false ht]
        have : xs.all id = false := by
          rw [Bool.eq_false_iff]
          intro c
          apply ht
          intro r hr
          rw [← hb, h.bits _ _ (by omega) (by omega)]
          exact hall.1 c _ _
        simp [this]
  · rw [decide_eq_false hloop]
    simp only [Bool.not_false, if_true, Option.some.injEq]
    symm
    rw [Bool.eq_false_iff]
    intro c
    simp only [Bool.and_eq_true, Bool.or_eq_true, decide_eq_true_eq] at c
    apply hloop
    intro q hq
    refine ⟨?_, fun r hr => ?_⟩
    · rcases c.2 with c | c
      · exact c
      · rw [hlt.2 c] at hq; exact absurd hq (Nat.not_lt_zero _)
    · have h5 : (q + 1) * w ≤ xs.length / w * w := Nat.mul_le_mul_right w hq
      rw [Nat.add_mul] at h5
      rw [h.bits q r hr (by omega)]
      exact hall.1 c.1.2 _ _

open scoped Classical in
theorem any_eq {b : Bits w} {xs} (hw : 0 < w) (h : Shows b xs) : any b = some (xs.any id) := by
  unfold any
  rw [empty_eq hw h]
  by_cases hx : xs = []
  · subst hx; simp
  have he : xs.isEmpty = false := by simp [hx]
  simp only [he, Bool.false_eq_true, if_false, h.size]
  have ed := Nat.div_add_mod xs.length w
  rw [Nat.mul_comm] at ed
  have hm := Nat.mod_lt xs.length hw
  have hlen := h.len
  have hle : xs.length / w ≤ b.words.length := by
    rw [hlen]
    by_cases hp : xs.length % w = 0
    · rw [wordSize_exact hw hp]; exact Nat.le_refl _
    · rw [wordSize_last hw hp]; exact Nat.le_succ _
  have hany : (xs.any id = true) ↔ ∃ i, ∃ hi : i < xs.length, xs[i] = true := by
    simp [List.any_eq_true, List.mem_iff_getElem]
  rw [anyLoop_eq _ _ _ (by omega)]
  simp only [Option.bind_eq_bind, Option.bind_some, Nat.zero_le, true_and, Nat.zero_add]
  by_cases hloop : ∃ q r, q < xs.length / w ∧ r < w ∧ bit b.words q r = true
  · rw [decide_eq_true hloop]
    simp only [if_true, Option.some.injEq]
    symm
    obtain ⟨q, r, hq, hr, hb⟩ := hloop
    have h5 : (q + 1) * w ≤ xs.length / w * w := Nat.mul_le_mul_right w hq
    rw [Nat.add_mul] at h5
    rw [h.bits q r hr (by omega)] at hb
    exact hany.2 ⟨_, _, hb⟩
  · rw [decide_eq_false hloop]
    simp only [Bool.false_eq_true, if_false]
    by_cases hp : xs.length % w = 0
    · have h1 : b.words.length = xs.length / w := by rw [hlen, wordSize_exact hw hp]
      simp only [h1, ne_eq, not_true_eq_false, if_false, Option.some.injEq]
      symm
      rw [Bool.eq_false_iff]
      intro c
      obtain ⟨i, hi, hxi⟩ := hany.1 c
      apply hloop
      refine ⟨i / w, i % w, ?_, Nat.mod_lt _ hw, by rw [h.at hw hi, hxi]⟩
      rw [← h1, hlen]; exact div_lt_of_lt hw hi
    · have h1 : b.words.length = xs.length / w + 1 := by rw [hlen, wordSize_last hw hp]
      rw [if_pos (by rw [h1]; exact (Nat.succ_ne_self _).symm)]
      have hlast : b.words.getLast? = some (b.words[xs.length / w]'(by rw [h1]; exact Nat.lt_succ_self _)) := by
        have h1' : b.words.length - 1 = xs.length / w := by rw [h1]; exact Nat.add_sub_cancel ..
        rw [List.getLast?_eq_getElem?, h1']; exact List.getElem?_eq_getElem _
      rw [hlast]
      simp only [Option.bind_some]
      rw [tail_any _ _ hm]
      have hb : ∀ r, bit b.words (xs.length / w) r = _ := bit_of_getElem? (List.getElem?_eq_getElem (by rw [h1]; exact Nat.lt_succ_self _))
      by_cases ht : ∃ r < xs.length % w, (b.words[xs.length / w]).getLsbD r = true
      · rw [decide_eq_true ht]
        simp only [if_true, Option.some.injEq]
        symm
        obtain ⟨r, hr, hx⟩ := ht
        rw [← hb, h.bits _ _ (by omega) (by omega)] at hx
        exact hany.2 ⟨_, _, hx⟩
      · rw [decide_eq_false ht]
        simp only [Bool.false_eq_true, if_false, Option.some.injEq]
        symm
        rw [Bool.eq_false_iff]
        intro c
        obtain ⟨i, hi, hxi⟩ := hany.1 c
        rw [← h.at hw hi] at hxi
        by_cases hq : i / w < xs.length / w
        · exact hloop ⟨_, _, hq, Nat.mod_lt _ hw, hxi⟩
        · have h3 := div_lt_of_lt hw hi
          rw [wordSize_last hw hp] at h3
          have h4 : i / w = xs.length / w := Nat.le_antisymm (Nat.le_of_lt_succ h3) (Nat.le_of_not_lt hq)
          rw [h4, hb] at hxi
          apply ht
          have e := Nat.div_add_mod i w
          rw [Nat.mul_comm, h4] at e
          exact ⟨_, by omega, hxi⟩

/-! ## append -/

/-- bit `p` of the words, counted from the start of the buffer (for a position given as `base word, offset`) -/
def bitFrom (ws : List (BitVec w)) (q r : Nat) : Bool := if r < w then bit ws q r else bit ws (q + 1) (r - w)

theorem appendLoop_eq (hw : 0 < w) {xs ys : List Bool} {src : Option (List (BitVec w))} {B pad L : Nat}
    (hn : xs.length = B * w + pad) (hp0 : 0 < pad) (hp : pad < w)
    (hL : xs.length + ys.length ≤ L * w)
    (hread : ∀ ws, ws.length = L → (∀ q r, r < w → (h : q * w + r < xs.length) → bit ws q r = xs[q * w + r]) →
      ys.length ≤ (src.getD ws).length * w ∧ ∀ q r, r < w → (h : q * w + r < ys.length) → bit (src.getD ws) q r = ys[q * w + r]) :
    ∀ f ws k, ws.length = L → B + k < L → L ≤ f + (B + k) →
      (∀ q r, r < w → (h : q * w + r < xs.length) → bit ws q r = xs[q * w + r]) →
      (∀ q r, r < w → q < k → (h : q * w + r < ys.length) → bitFrom ws (B + q) (pad + r) = ys[q * w + r]) →
      (∀ r, pad ≤ r → r < w → bit ws (B + k) r = false) →
      ∃ ws', appendLoop src pad f ws (B + k) k = some ws' ∧ ws'.length = L ∧
        (∀ q r, r < w → (h : q * w + r < xs.length) → bit ws' q r = xs[q * w + r]) ∧
        (∀ q r, r < w → (h : q * w + r < ys.length) → bitFrom ws' (B + q) (pad + r) = ys[q * w + r])
  | 0, ws, k, _, h1, h2, _, _, _ => by omega
  | f+1, ws, k, hl, h1, h2, hx, hy, hz => by
    obtain ⟨hr1, hr2⟩ := hread ws hl hx
    simp only [appendLoop]
    by_cases hk : k < (src.getD ws).length
    · simp only [hk, if_true]
      have hkl : B + k < ws.length := by omega
      rw [List.getElem?_eq_getElem hk, List.getElem?_eq_getElem hkl]
      simp only [Option.bind_eq_bind, Option.bind_some, List.length_set]
      have hcur : ∀ r, bit (src.getD ws) k r = ((src.getD ws)[k]).getLsbD r := bit_of_getElem? (List.getElem?_eq_getElem hk)
      have hxw : ∀ r, bit ws (B + k) r = (ws[B + k]).getLsbD r := bit_of_getElem? (List.getElem?_eq_getElem hkl)
      generalize hcu : (src.getD ws)[k] = cur at hcur ⊢
      generalize hxe : ws[B + k] = x at hxw ⊢
      -- the word after `|=`
      have hword : ∀ r, r < w → (x ||| cur <<< pad).getLsbD r = if r < pad then bit ws (B + k) r else cur.getLsbD (r - pad) := by
        intro r hr
        simp only [BitVec.getLsbD_or, BitVec.getLsbD_shiftLeft, hr, decide_true, Bool.true_and]
        by_cases e : r < pad
        · simp [e, hxw]
        · rw [← hxw, hz r (by omega) hr]; simp [e]
      have hx1 : ∀ q r, r < w → (h : q * w + r < xs.length) → bit (ws.set (B + k) (x ||| cur <<< pad)) q r = xs[q * w + r] := by
        intro q r hr h
        rw [bit_set hkl]
        by_cases e : q = B + k
        · rw [if_pos e, hword r hr]
          have : r < pad := by
            subst e; rw [Nat.add_mul] at h; omega
          rw [if_pos this, ← e, hx q r hr h]
        · rw [if_neg e, hx q r hr h]
      have hy1 : ∀ q r, r < w → q < k → (h : q * w + r < ys.length) →
          bitFrom (ws.set (B + k) (x ||| cur <<< pad)) (B + q) (pad + r) = ys[q * w + r] := by
        intro q r hr hq h
        rw [← hy q r hr hq h]
        unfold bitFrom
        by_cases e : pad + r < w
        · rw [if_pos e, if_pos e, bit_set hkl, if_neg (by omega)]
        · rw [if_neg e, if_neg e, bit_set hkl]
          by_cases e2 : B + q + 1 = B + k
          · rw [if_pos e2, hword _ (by omega), if_pos (by omega), e2]
          · rw [if_neg e2]
      have hyk : ∀ r, r < w → pad + r < w → (h : k * w + r < ys.length) →
          bit (ws.set (B + k) (x ||| cur <<< pad)) (B + k) (pad + r) = ys[k * w + r] := by
        intro r hr e h
        rw [bit_set hkl, if_pos rfl, hword _ e, if_neg (by omega), ← hr2 k r hr h, hcur]
        congr 1; omega
      by_cases hend : B + k + 1 = L
      · rw [if_pos (by omega)]
        refine ⟨_, rfl, by simp [hl], hx1, ?_⟩
        intro q r hr h
        rcases Nat.lt_trichotomy q k with hq | hq | hq
        · exact hy1 q r hr hq h
        · subst hq
          have e : pad + r < w := by
            rw [← hend, Nat.add_mul, Nat.add_mul] at hL; omega
          unfold bitFrom
          rw [if_pos e]
          exact hyk r hr e h
        · exfalso
          have h5 : (k + 1) * w ≤ q * w := Nat.mul_le_mul_right w hq
          rw [← hend, Nat.add_mul, Nat.add_mul] at hL
          rw [Nat.add_mul] at h5
          omega
      · have hkl2 : B + k + 1 < (ws.set (B + k) (x ||| cur <<< pad)).length := by simp; omega
        rw [if_neg (by omega), List.getElem?_eq_getElem hkl2]
        simp only [Option.bind_some]
        have hnew : ∀ r, r < w → (cur >>> (w - pad)).getLsbD r = cur.getLsbD (w - pad + r) := by
          intro r hr; simp [BitVec.getLsbD_ushiftRight]
        rw [show B + k + 1 = B + (k + 1) from rfl]
        apply appendLoop_eq hw hn hp0 hp hL hread f _ (k+1) (by simp [hl]) (by omega) (by omega)
        · intro q r hr h
          rw [bit_set (by simp; omega), if_neg, hx1 q r hr h]
          intro e
          subst e
          rw [Nat.add_mul, Nat.add_mul] at h
          omega
        · intro q r hr hq h
          by_cases e : pad + r < w
          · unfold bitFrom
            rw [if_pos e, bit_set (by simp; omega), if_neg (by omega)]
            by_cases hq2 : q = k
            · subst hq2; exact hyk r hr e h
            · have := hy1 q r hr (by omega) h
              unfold bitFrom at this
              rw [if_pos e] at this; exact this
          · unfold bitFrom
            rw [if_neg e, bit_set (by simp; omega)]
            by_cases hq2 : q = k
            · subst hq2
              rw [if_pos (by omega), hnew _ (by omega), ← hr2 q r hr h, hcur]
              congr 1; omega
            · rw [if_neg (by omega)]
              have := hy1 q r hr (by omega) h
              unfold bitFrom at this
              rw [if_neg e] at this; exact this
        · intro r hr1 hr2
          rw [bit_set (by simp; omega), if_pos rfl, hnew r hr2]
          apply BitVec.getLsbD_of_ge
          omega
    · rw [if_neg hk]
      refine ⟨ws, rfl, hl, hx, ?_⟩
      intro q r hr h
      refine hy q r hr ?_ h
      by_contra hc
      have h5 : (src.getD ws).length * w ≤ q * w := Nat.mul_le_mul_right w (by omega)
      omega

theorem append_lucky (hw : 0 < w) {b o : Bits w} {xs ys} (h : Shows b xs) (ho : Shows o ys) (hp : xs.length % w = 0) :
    Shows ⟨b.words ++ o.words, b.size + o.size⟩ (xs ++ ys) := by
  have ed := Nat.div_add_mod xs.length w
  rw [hp, Nat.mul_comm] at ed
  have hlen : b.words.length = xs.length / w := by rw [h.len, wordSize_exact hw hp]
  have hws : wordSize w (xs.length + ys.length) = xs.length / w + wordSize w ys.length := by
    apply Nat.le_antisymm
    · by_contra hc
      have := (wordSize_le_iff hw (xs.length + ys.length) (xs.length / w + wordSize w ys.length)).1 (by omega)
      rw [Nat.add_mul] at this
      have := wordSize_ge hw ys.length
      omega
    · by_contra hc
      have h2 : wordSize w ys.length ≠ 0 := by
        intro e; rw [e] at hc
        apply hc
        by_contra hd
        rw [Nat.add_zero] at hd
        have := wordSize_ge hw (xs.length + ys.length)
        have h5 : (wordSize w (xs.length + ys.length) + 1) * w ≤ xs.length / w * w := Nat.mul_le_mul_right w (by
          generalize xs.length / w = a at *; omega)
        rw [Nat.add_mul] at h5
        omega
      have h3 := (wordSize_le_iff hw ys.length (wordSize w ys.length - 1)).1 (by omega)
      have h4 : ¬ (xs.length / w + (wordSize w ys.length - 1)) < wordSize w (xs.length + ys.length) := by
        generalize xs.length / w = a at *; omega
      rw [wordSize_le_iff hw, Nat.add_mul] at h4
      omega
  refine ⟨by simp [List.length_append, hlen, ho.len, hws], by simp [h.size, ho.size], ?_⟩
  intro q r hr hq
  simp only [List.length_append] at hq
  rw [List.getElem_append]
  by_cases hq1 : q < xs.length / w
  · have h5 : (q + 1) * w ≤ xs.length / w * w := Nat.mul_le_mul_right w hq1
    rw [Nat.add_mul] at h5
    rw [dif_pos (by omega), ← h.bits q r hr (by omega)]
    unfold bit
    rw [List.getElem?_append_left (by rw [hlen]; exact hq1)]
  · have h5 : xs.length / w * w ≤ q * w := Nat.mul_le_mul_right w (Nat.le_of_not_lt hq1)
    rw [dif_neg (by omega)]
    have e : q * w + r - xs.length = (q - xs.length / w) * w + r := by
      rw [Nat.sub_mul]; omega
    simp only [e]
    rw [← ho.bits (q - xs.length / w) r hr (by omega)]
    unfold bit
    rw [List.getElem?_append_right (by rw [hlen]; exact Nat.le_of_not_lt hq1), hlen]

/-- `append`; `other = none`: the bitset itself -/
theorem append_eq (hw : 0 < w) {b : Bits w} {other : Option (Bits w)} {xs ys} (h : Shows b xs)
    (ho : ∀ o, other = some o → Shows o ys) (hs : other = none → ys = xs ∧ (xs = [] ∨ xs.length % w ≠ 0)) :
    ∃ b', append b other = some b' ∧ Shows b' (xs ++ ys) := by
  have ho' : Shows (other.getD b) ys := by
    cases other with
    | none => rw [(hs rfl).1]; exact h
    | some o => exact ho o rfl
  unfold append
  simp only [empty_eq hw ho']
  by_cases hy : ys = []
  · subst hy
    exact ⟨b, by simp, by simpa using h⟩
  have he : ys.isEmpty = false := by simp [hy]
  simp only [he, Bool.false_eq_true, if_false, h.size]
  by_cases hp : xs.length % w = 0
  · simp only [hp, if_true]
    cases other with
    | none =>
      rcases (hs rfl).2 with e | e
      · rw [(hs rfl).1] at hy; exact absurd e hy
      · exact absurd hp e
    | some o =>
      refine ⟨_, rfl, ?_⟩
      have := append_lucky hw h (ho o rfl) hp
      rw [h.size] at this
      exact this
  · simp only [hp, if_false]
    obtain ⟨b1, e1, e2, e3, e4⟩ := resize_bits hw h (xs.length + (other.getD b).size)
    simp only [e1, Option.bind_eq_bind, Option.bind_some]
    rw [ho'.size] at e2 e3 e4
    have ed := Nat.div_add_mod xs.length w
    rw [Nat.mul_comm] at ed
    have hm := Nat.mod_lt xs.length hw
    have hback : b.words.length - 1 = xs.length / w := by
      rw [h.len, wordSize_last hw hp]; exact Nat.add_sub_cancel ..
    have hBL : xs.length / w < wordSize w (xs.length + ys.length) := by
      rw [wordSize_le_iff hw]; omega
    have hLL : wordSize w xs.length ≤ wordSize w (xs.length + ys.length) := by
      by_contra hc
      have h8 := (wordSize_le_iff hw xs.length (wordSize w (xs.length + ys.length))).1 (by omega)
      have := wordSize_ge hw (xs.length + ys.length)
      omega
    obtain ⟨ws', f1, f2, f3, f4⟩ := appendLoop_eq (src := other.map Bits.words) (L := wordSize w (xs.length + ys.length)) hw ed.symm
      (by omega) hm (wordSize_ge hw _) (by
        intro ws hl hx
        cases other with
        | none =>
          simp only [Option.map_none, Option.getD_none, (hs rfl).1]
          refine ⟨?_, hx⟩
          rw [hl]
          have := wordSize_ge hw (xs.length + ys.length)
          omega
        | some o =>
          simp only [Option.map_some, Option.getD_some]
          refine ⟨?_, (ho o rfl).bits⟩
          rw [(ho o rfl).len]; exact wordSize_ge hw _) (b1.words.length + 1) b1.words 0 e3 hBL
        (by rw [e3]; generalize xs.length / w = a; omega)
        (by
          intro q r hr hq
          rw [e4 q r hr (lt_wordSize_of hw (n := xs.length + ys.length) (r := r) (by omega)), dif_pos hq])
        (by intro q r _ hq; omega)
        (by
          intro r hr1 hr2
          rw [Nat.add_zero, e4 _ r hr2 hBL, dif_neg (by omega)])
    rw [hback]
    have f1' : appendLoop (other.map Bits.words) (xs.length % w) (b1.words.length + 1) b1.words (xs.length / w) 0 = some ws' := f1
    rw [f1']
    refine ⟨_, rfl, by simp [f2], by simp [e2], ?_⟩
    intro q r hr hq
    simp only [List.length_append] at hq
    show bit ws' q r = _
    rw [List.getElem_append]
    by_cases hx : q * w + r < xs.length
    · rw [dif_pos hx, f3 q r hr hx]
    · rw [dif_neg hx]
      have hqB : xs.length / w ≤ q := by
        by_contra hc
        have h5 : (q + 1) * w ≤ xs.length / w * w := Nat.mul_le_mul_right w (Nat.lt_of_not_le hc)
        rw [Nat.add_mul] at h5
        omega
      have h6 : xs.length / w * w ≤ q * w := Nat.mul_le_mul_right w hqB
      by_cases hr3 : xs.length % w ≤ r
      · have e : q * w + r - xs.length = (q - xs.length / w) * w + (r - xs.length % w) := by
          rw [Nat.sub_mul]; omega
        simp only [e]
        rw [← f4 (q - xs.length / w) (r - xs.length % w) (by omega) (by omega)]
        unfold bitFrom
        rw [if_pos (by omega)]
        congr 1
        · generalize xs.length / w = a at *; omega
        · omega
      · have hqB2 : xs.length / w ≠ q := by
          intro e
          rw [e] at ed; omega
        have h7 : (xs.length / w + 1) * w ≤ q * w := Nat.mul_le_mul_right w (Nat.lt_of_le_of_ne hqB hqB2)
        have e : q * w + r - xs.length = (q - xs.length / w - 1) * w + (w + r - xs.length % w) := by
          rw [Nat.sub_mul, Nat.sub_mul]; rw [Nat.add_mul] at h7; omega
        simp only [e]
        rw [← f4 (q - xs.length / w - 1) (w + r - xs.length % w) (by omega) (by omega)]
        unfold bitFrom
        rw [if_neg (by omega)]
        congr 1
        · generalize xs.length / w = a at *; omega
        · omega

end Itlib.Bitset
