import Verif.Bitset.Lemmas

namespace Itlib.Bitset

open Spec (splice)

variable {w : Nat}

theorem length_splice {xs ys : List Bool} {frm to source : Nat} (h1 : frm ≤ to) (h2 : to ≤ xs.length)
    (h3 : source + (to - frm) ≤ ys.length) : (splice xs frm to ys source).length = xs.length := by
  simp [splice]; omega

theorem getElem_splice {xs ys : List Bool} {frm to source : Nat} (h1 : frm ≤ to) (h2 : to ≤ xs.length)
    (h3 : source + (to - frm) ≤ ys.length) (i : Nat) (hi : i < (splice xs frm to ys source).length) :
    (splice xs frm to ys source)[i] =
      if h : frm ≤ i ∧ i < to then ys[source + (i - frm)] else xs[i]'(by rwa [length_splice h1 h2 h3] at hi) := by
  have hl := length_splice h1 h2 h3
  simp only [splice]
  by_cases ha : i < frm
  · rw [dif_neg (by omega), List.getElem_append_left (by simp; omega), List.getElem_append_left (by simp; omega), List.getElem_take]
  · by_cases hb : i < to
    · rw [dif_pos (by omega), List.getElem_append_left (by simp; omega), List.getElem_append_right (by simp; omega)]
      simp only [List.getElem_take, List.getElem_drop, List.length_take]
      congr 1
      omega
    · rw [dif_neg (by omega), List.getElem_append_right (by simp; omega), List.getElem_drop]
      congr 1
      simp only [List.length_append, List.length_take, List.length_drop]
      omega

/-- what the copying loops read: bit `source + k` is still the one it was at the start, for the bits not yet copied -/
def Reads (src : Option (Bits w)) (xs ys : List Bool) (frm n source : Nat) : Prop :=
  ∀ m (b : Bits w), m ≤ n → Shows b (splice xs frm (frm + m) ys source) →
    ∃ zs, Shows (src.getD b) zs ∧ source + n ≤ zs.length ∧
      ∀ i (_ : source + m ≤ i) (_ : i < source + n) (h1 : i < zs.length) (h2 : i < ys.length), zs[i] = ys[i]

theorem reads_other {o : Bits w} {xs ys : List Bool} {frm n source : Nat} (h : Shows o ys) (hn : source + n ≤ ys.length) :
    Reads (some o) xs ys frm n source :=
  fun _ _ _ _ => ⟨ys, h, hn, fun _ _ _ _ _ => rfl⟩

theorem reads_self {xs : List Bool} {frm n source : Nat} (hf : frm + n ≤ xs.length) (hn : source + n ≤ xs.length)
    (hov : ¬ (source < frm ∧ frm < source + n)) :
    Reads (none : Option (Bits w)) xs xs frm n source := by
  intro m b hm h
  have hl := length_splice (xs := xs) (ys := xs) (frm := frm) (to := frm + m) (source := source) (by omega) (by omega) (by omega)
  refine ⟨_, h, by omega, ?_⟩
  intro i h1 h2 h3 h4
  rw [getElem_splice (by omega) (by omega) (by omega), dif_neg (by omega)]

theorem copyBits_eq (hw : 0 < w) {src : Option (Bits w)} {xs ys : List Bool} {frm n source : Nat}
    (hf : frm + n ≤ xs.length) (hn : source + n ≤ ys.length) (hr : Reads src xs ys frm n source) :
    ∀ f m b, m ≤ n → Shows b (splice xs frm (frm + m) ys source) → (∃ g, g ≤ f ∧ (frm + m + g) % w = 0) →
      (∃ b', copyBits src (frm + n) f b (frm + m) (source + m) = some (.inl b') ∧ Shows b' (splice xs frm (frm + n) ys source) ∧
        (frm + m) % w ≠ 0 ∧ (frm + m) / w = (frm + n) / w) ∨
      (∃ b' m', copyBits src (frm + n) f b (frm + m) (source + m) = some (.inr (b', frm + m', source + m')) ∧ m' ≤ n ∧
        Shows b' (splice xs frm (frm + m') ys source) ∧ (frm + m') % w = 0 ∧ m ≤ m' ∧
        ((frm + m) % w = 0 ∧ m' = m ∨ (frm + m) % w ≠ 0 ∧ (frm + m) / w < (frm + n) / w))
  | 0, m, b, hm, h, ⟨g, hg, hg2⟩ => by
    have : g = 0 := by omega
    subst this
    right
    rw [Nat.add_zero] at hg2
    exact ⟨b, m, by simp [copyBits, hg2], hm, h, hg2, Nat.le_refl _, .inl ⟨hg2, rfl⟩⟩
  | f+1, m, b, hm, h, ⟨g, hg, hg2⟩ => by
    by_cases hz : (frm + m) % w = 0
    · right
      exact ⟨b, m, by simp [copyBits, hz], hm, h, hz, Nat.le_refl _, .inl ⟨hz, rfl⟩⟩
    · by_cases he : m = n
      · left
        subst he
        exact ⟨b, by simp [copyBits, hz], h, hz, rfl⟩
      · obtain ⟨zs, z1, z2, z3⟩ := hr m b hm h
        have hl := length_splice (xs := xs) (ys := ys) (frm := frm) (to := frm + m) (source := source) (by omega) (by omega) (by omega)
        obtain ⟨b', e', h'⟩ := setTo_eq hw h (frm + m) (by omega) ys[source + m]
        have hset : (splice xs frm (frm + m) ys source).set (frm + m) ys[source + m] = splice xs frm (frm + (m + 1)) ys source := by
          have hl2 := length_splice (xs := xs) (ys := ys) (frm := frm) (to := frm + (m+1)) (source := source) (by omega) (by omega) (by omega)
          apply List.ext_getElem
          · simp [hl, hl2]
          · intro i h1 h2
            rw [List.getElem_set, getElem_splice (by omega) (by omega) (by omega), getElem_splice (by omega) (by omega) (by omega)]
            by_cases e1 : frm + m = i
            · rw [if_pos e1, dif_pos (by omega)]
              congr 1
              omega
            · rw [if_neg e1]
              by_cases e2 : frm ≤ i ∧ i < frm + m
              · rw [dif_pos e2, dif_pos (by omega)]
              · rw [dif_neg e2, dif_neg (by omega)]
        rw [hset] at h'
        have hg1 : g ≠ 0 := by intro e; subst e; exact hz hg2
        have hstep : copyBits src (frm + n) (f + 1) b (frm + m) (source + m) = copyBits src (frm + n) f b' (frm + (m + 1)) (source + (m + 1)) := by
          have ht := test_eq hw z1 (source + m) (by omega)
          rw [z3 (source + m) (by omega) (by omega) (by omega) (by omega)] at ht
          simp only [copyBits, hz, ne_eq, not_false_eq_true, if_true, Option.bind_eq_bind]
          rw [if_neg (by omega), ht]
          simp only [Option.bind_some, e']
          rfl
        rw [hstep]
        -- one step inside the word
        have hdiv : (frm + (m + 1)) % w ≠ 0 → (frm + (m + 1)) / w = (frm + m) / w := by
          intro hnz
          have := Nat.succ_div (a := frm + m) (b := w)
          rw [if_neg (by intro hd; exact hnz (Nat.mod_eq_zero_of_dvd hd))] at this
          exact this
        rcases copyBits_eq hw hf hn hr f (m+1) b' (by omega) h' ⟨g - 1, by omega, by rw [← hg2]; congr 1; omega⟩ with
          ⟨b2, r1, r2, r3, r4⟩ | ⟨b2, m2, r1, r2, r3, r4, r5, r6⟩
        · left
          exact ⟨b2, r1, r2, hz, by rw [← hdiv r3, r4]⟩
        · right
          refine ⟨b2, m2, r1, r2, r3, r4, by omega, .inr ⟨hz, ?_⟩⟩
          rcases r6 with ⟨r6, r7⟩ | ⟨r6, r7⟩
          · have := Nat.succ_div (a := frm + m) (b := w)
            rw [if_pos (show w ∣ frm + m + 1 from Nat.dvd_of_mod_eq_zero r6)] at this
            have h9 : (frm + m + 1) / w ≤ (frm + n) / w := Nat.div_le_div_right (by omega)
            rw [this] at h9
            exact h9
          · rw [← hdiv r6]; exact r7

/-- the `w` bits of the source from position `sw * w + pad` on -/
theorem window (hw : 0 < w) {pad : Nat} (hp : pad < w) (x y : BitVec w) (r : Nat) (hr : r < w) :
    ((x >>> pad) ||| (if pad ≠ 0 then y <<< (w - pad) else 0)).getLsbD r =
      if pad + r < w then x.getLsbD (pad + r) else y.getLsbD (pad + r - w) := by
  by_cases hz : pad = 0
  · subst hz; simp [hr]
  · simp only [ne_eq, hz, not_false_eq_true, if_true, BitVec.getLsbD_or, BitVec.getLsbD_ushiftRight, BitVec.getLsbD_shiftLeft]
    by_cases h : pad + r < w
    · simp [h, hr, show r < w - pad from by omega]
    · rw [BitVec.getLsbD_of_ge x _ (by omega)]
      simp [h, hr, show ¬ r < w - pad from by omega, show r - (w - pad) = pad + r - w from by omega]

theorem Shows.word (hw : 0 < w) {b : Bits w} {xs} (h : Shows b xs) {k : Nat} (hk : k * w < xs.length) :
    ∃ x, b.words[k]? = some x ∧ ∀ r, r < w → (hr : k * w + r < xs.length) → x.getLsbD r = xs[k * w + r] := by
  have hl : k < b.words.length := by rw [h.len, wordSize_le_iff hw]; exact hk
  refine ⟨b.words[k], List.getElem?_eq_getElem hl, fun r hr hr2 => ?_⟩
  rw [← h.bits k r hr hr2, bit_of_getElem? (List.getElem?_eq_getElem hl)]

/-- one whole word -/
theorem copyWord_step (hw : 0 < w) {src : Option (Bits w)} {xs ys : List Bool} {frm n source : Nat}
    (hf : frm + n ≤ xs.length) (hn : source + n ≤ ys.length) (hr : Reads src xs ys frm n source)
    (hov : src = none → ¬ (source < frm ∧ frm < source + n))
    {m own sw pad : Nat} {b : Bits w} (hm : m + w ≤ n) (h : Shows b (splice xs frm (frm + m) ys source))
    (ho : frm + m = own * w) (hs : source + m = sw * w + pad) (hp : pad < w) :
    ∃ b' x b1, (src.getD b).words[sw]? = some x ∧ putWord b own (fun _ => x >>> pad) = some b1 ∧
      (if pad ≠ 0 then (do
          let y ← (src.getD b1).words[sw + 1]?
          putWord b1 own fun o => o ||| (y <<< (w - pad))) else some b1) = some b' ∧
      Shows b' (splice xs frm (frm + (m + w)) ys source) := by
  obtain ⟨zs, z1, z2, z3⟩ := hr m b (by omega) h
  have hl := length_splice (xs := xs) (ys := ys) (frm := frm) (to := frm + m) (source := source) (by omega) (by omega) (by omega)
  have hl2 := length_splice (xs := xs) (ys := ys) (frm := frm) (to := frm + (m + w)) (source := source) (by omega) (by omega) (by omega)
  obtain ⟨x, hx, hxb⟩ := z1.word hw (k := sw) (by omega)
  have hown : own < b.words.length := by rw [h.len, hl, wordSize_le_iff hw]; omega
  -- the final word
  have hfin : ∀ (b' : Bits w) (y : BitVec w), b'.size = b.size → b'.words.length = b.words.length →
      (pad ≠ 0 → ∀ r, r < pad → (hr : (sw + 1) * w + r < zs.length) → y.getLsbD r = zs[(sw + 1) * w + r]) →
      (∀ q r, bit b'.words q r = if q = own then ((x >>> pad) ||| (if pad ≠ 0 then y <<< (w - pad) else 0)).getLsbD r else bit b.words q r) →
      Shows b' (splice xs frm (frm + (m + w)) ys source) := by
    intro b' y s1 s2 hy s3
    refine ⟨by rw [s2, h.len, hl, hl2], by rw [s1, h.size, hl, hl2], ?_⟩
    intro q r hr hq
    rw [s3, getElem_splice (by omega) (by omega) (by omega)]
    rw [hl2] at hq
    by_cases e : q = own
    · rw [if_pos e, window hw hp x y r hr, dif_pos (by subst e; omega)]
      have hys : ∀ (h1 : source + m + r < zs.length) (h2 : source + (q * w + r - frm) < ys.length), zs[source + m + r] = ys[source + (q * w + r - frm)] := by
        intro h1 h2
        rw [z3 (source + m + r) (by omega) (by omega) h1 (by omega)]
        congr 1; subst e; omega
      by_cases e2 : pad + r < w
      · rw [if_pos e2, hxb (pad + r) e2 (by omega), ← hys (by omega) (by subst e; omega)]
        congr 1; omega
      · rw [if_neg e2, hy (by omega) _ (by omega) (by rw [Nat.add_mul]; omega), ← hys (by omega) (by subst e; omega)]
        congr 1; rw [Nat.add_mul]; omega
    · rw [if_neg e, h.bits q r hr (by omega), getElem_splice (by omega) (by omega) (by omega)]
      have hqne : ¬ (frm + m ≤ q * w + r ∧ q * w + r < frm + (m + w)) := by
        rintro ⟨c1, c2⟩
        rcases Nat.lt_or_gt_of_ne e with c | c
        · have h5 : (q + 1) * w ≤ own * w := Nat.mul_le_mul_right w c
          rw [Nat.add_mul] at h5; omega
        · have h5 : (own + 1) * w ≤ q * w := Nat.mul_le_mul_right w c
          rw [Nat.add_mul] at h5; omega
      by_cases e2 : frm ≤ q * w + r ∧ q * w + r < frm + m
      · rw [dif_pos e2, dif_pos (by omega)]
      · rw [dif_neg e2, dif_neg (by omega)]
  obtain ⟨b1, p1, p2, p3, p4⟩ := putWord_eq (b := b) (k := own) (fun _ => x >>> pad) hown
  by_cases hz : pad = 0
  · refine ⟨b1, x, b1, hx, p1, by simp [hz], ?_⟩
    apply hfin b1 0 p2 p3 (fun c => absurd hz c)
    intro q r
    rw [p4]
    simp [hz]
  · -- the second word of the source has not been touched by the first write
    have hy : ∃ y, (src.getD b1).words[sw + 1]? = some y ∧
        ∀ r, r < w → (hr : (sw + 1) * w + r < zs.length) → y.getLsbD r = zs[(sw + 1) * w + r] := by
      have hlt : (sw + 1) * w < zs.length := by rw [Nat.add_mul]; omega
      obtain ⟨y, hy, hyb⟩ := z1.word hw hlt
      refine ⟨y, ?_, hyb⟩
      cases hsrc : src with
      | some o => rw [hsrc] at hy; exact hy
      | none =>
        rw [hsrc] at hy
        simp only [Option.getD_none] at hy ⊢
        have hne : own ≠ sw + 1 := by
          intro e
          apply hov hsrc
          rw [e, Nat.add_mul] at ho
          omega
        have hb1 : b1.words = b.words.set own (x >>> pad) := by
          simp only [putWord, List.getElem?_eq_getElem hown, Option.bind_eq_bind, Option.bind_some, Option.some.injEq] at p1
          rw [← p1]
        rw [hb1, List.getElem?_set_ne hne]
        exact hy
    obtain ⟨y, hy, hyb⟩ := hy
    obtain ⟨b2, q1, q2, q3, q4⟩ := putWord_eq (b := b1) (k := own) (fun o => o ||| (y <<< (w - pad))) (by omega)
    refine ⟨b2, x, b1, hx, p1, ?_, ?_⟩
    · simp only [hz, ne_eq, not_false_eq_true, if_true, hy, Option.bind_eq_bind, Option.bind_some, q1]
    · apply hfin b2 y (by rw [q2, p2]) (by rw [q3, p3]) (fun _ r hr hr2 => hyb r (by omega) hr2)
      intro q r
      rw [q4, p4]
      by_cases e : q = own
      · subst e
        simp only [if_true]
        have : b1.words[q]'(by omega) = x >>> pad := by
          simp only [putWord, List.getElem?_eq_getElem hown, Option.bind_eq_bind, Option.bind_some, Option.some.injEq] at p1
          simp [← p1]
        rw [this]
        simp [hz]
      · simp [e]

theorem copyWords_eq (hw : 0 < w) {src : Option (Bits w)} {xs ys : List Bool} {frm n source : Nat}
    (hf : frm + n ≤ xs.length) (hn : source + n ≤ ys.length) (hr : Reads src xs ys frm n source)
    (hov : src = none → ¬ (source < frm ∧ frm < source + n)) {pad : Nat} (hp : pad < w) :
    ∀ f m own sw b, m ≤ n → n < m + f → Shows b (splice xs frm (frm + m) ys source) →
      frm + m = own * w → source + m = sw * w + pad →
      ∃ b' m' own' sw', copyWords src (frm + n) pad f b (frm + m) own sw = some (b', frm + m', own', sw') ∧
        m' ≤ n ∧ n < m' + w ∧ Shows b' (splice xs frm (frm + m') ys source) ∧ frm + m' = own' * w ∧ source + m' = sw' * w + pad
  | 0, m, own, sw, b, h1, h2, _, _, _ => by omega
  | f+1, m, own, sw, b, h1, h2, h, ho, hs => by
    by_cases hc : m + w ≤ n
    · obtain ⟨b', x, b1, e1, e2, e3, h'⟩ := copyWord_step hw hf hn hr hov hc h ho hs hp
      have hstep : copyWords src (frm + n) pad (f+1) b (frm + m) own sw = copyWords src (frm + n) pad f b' (frm + (m + w)) (own + 1) (sw + 1) := by
        simp only [copyWords]
        rw [if_pos (by omega)]
        simp only [Option.bind_eq_bind, e1, e2, Option.bind_some] at e3 ⊢
        by_cases hz : pad = 0
        · simp only [hz, ne_eq, not_true_eq_false, if_false, Option.some.injEq] at e3 ⊢
          rw [e3, Nat.add_assoc]
        · simp only [hz, ne_eq, not_false_eq_true, if_true] at e3 ⊢
          rw [← Option.bind_assoc, e3]
          simp only [Option.bind_some, Nat.add_assoc]
      rw [hstep]
      exact copyWords_eq hw hf hn hr hov hp f (m + w) (own + 1) (sw + 1) b' hc (by omega) h' (by rw [Nat.add_mul]; omega) (by rw [Nat.add_mul]; omega)
    · refine ⟨b, m, own, sw, ?_, h1, by omega, h, ho, hs⟩
      simp only [copyWords]
      rw [if_neg (by omega)]

/-- The destination bits which `copy` fails to get from the source: those of the last, partial, word of the destination
which come from the second of two source words. -/
def lost (w frm to source i : Nat) : Bool :=
  decide (frm ≤ i ∧ i < to ∧ ¬ (frm / w = to / w ∧ frm % w ≠ 0) ∧ to / w * w ≤ i ∧ w ≤ (source + (to / w * w - frm)) % w + i % w)

/-- `copy`: the exact effect -/
theorem copy_exact (hw : 0 < w) {b : Bits w} {src : Option (Bits w)} {xs ys : List Bool} {frm to source : Nat}
    (h : Shows b xs) (h1 : frm ≤ to) (h2 : to ≤ xs.length) (h3 : source + (to - frm) ≤ ys.length)
    (ho : ∀ o, src = some o → Shows o ys) (hs : src = none → ys = xs ∧ ¬ (source < frm ∧ frm < source + (to - frm))) :
    ∃ b', copy b frm to src source = some b' ∧
      Shows b' ((splice xs frm to ys source).mapIdx fun i v => if lost w frm to source i then false else v) := by
  obtain ⟨n, rfl⟩ := Nat.exists_eq_add_of_le h1
  rw [Nat.add_sub_cancel_left] at h3 hs
  have hr : Reads src xs ys frm n source := by
    cases src with
    | some o => exact reads_other (ho o rfl) h3
    | none =>
      rw [(hs rfl).1] at h3 ⊢
      exact reads_self h2 h3 (hs rfl).2
  have hl := length_splice (xs := xs) (ys := ys) (frm := frm) (to := frm + n) (source := source) (by omega) (by omega) (by omega)
  have h0 : Shows b (splice xs frm (frm + 0) ys source) := by
    have : splice xs frm (frm + 0) ys source = xs := by simp [splice]
    rw [this]; exact h
  have hgap : ∃ g, g ≤ w ∧ (frm + 0 + g) % w = 0 := by
    refine ⟨w - frm % w, Nat.sub_le _ _, ?_⟩
    have e := Nat.div_add_mod frm w
    have := Nat.mod_lt frm hw
    rw [show frm + 0 + (w - frm % w) = w * (frm / w + 1) from by rw [Nat.mul_add]; omega]
    exact Nat.mul_mod_right ..
  -- nothing lost if the whole range is shown
  have hfull : ∀ b' : Bits w, Shows b' (splice xs frm (frm + n) ys source) → (∀ i, lost w frm (frm + n) source i = false) →
      Shows b' ((splice xs frm (frm + n) ys source).mapIdx fun i v => if lost w frm (frm + n) source i then false else v) := by
    intro b' hb hlost
    have : ((splice xs frm (frm + n) ys source).mapIdx fun i v => if lost w frm (frm + n) source i then false else v) = splice xs frm (frm + n) ys source := by
      apply List.ext_getElem
      · simp
      · intro i _ _
        simp [hlost]
    rw [this]; exact hb
  unfold copy
  rcases copyBits_eq hw h2 h3 hr w 0 b (Nat.zero_le _) h0 hgap with ⟨b1, e1, s1, s2, s3⟩ | ⟨b1, m, e1, hm, s1, s2, _, s3⟩
  · simp only [Nat.add_zero] at e1 s2 s3
    simp only [e1, Option.bind_eq_bind, Option.bind_some]
    refine ⟨b1, rfl, hfull b1 s1 fun i => ?_⟩
    simp only [lost, decide_eq_false_iff_not]
    rintro ⟨_, _, c, _⟩
    exact c ⟨s3, s2⟩
  · simp only [Nat.add_zero] at e1
    simp only [e1, Option.bind_eq_bind, Option.bind_some]
    have ed := Nat.div_add_mod (frm + m) w
    rw [s2, Nat.mul_comm, Nat.add_zero] at ed
    have es := Nat.div_add_mod (source + m) w
    rw [Nat.mul_comm] at es
    have hps := Nat.mod_lt (source + m) hw
    obtain ⟨b2, m2, own, sw, e2, hm2, hm3, t1, t2, t3⟩ := copyWords_eq hw h2 h3 hr (fun c => (hs c).2) hps
      (frm + n + 1) m ((frm + m) / w) ((source + m) / w) b1 hm (by omega) s1 ed.symm es.symm
    rw [e2]
    simp only [Option.bind_some]
    have hto : (frm + n) / w = own := by
      rw [show frm + n = n - m2 + own * w from by omega, Nat.add_mul_div_right _ _ hw, Nat.div_eq_of_lt (by omega)]
      omega
    have hto2 : (frm + n) % w = n - m2 := by
      rw [show frm + n = n - m2 + own * w from by omega, Nat.add_mul_mod_self_right, Nat.mod_eq_of_lt (by omega)]
    have hpad : (source + (own * w - frm)) % w = (source + m) % w := by
      have : source + (own * w - frm) = source + m2 := by omega
      rw [this, t3, Nat.mul_comm, Nat.mul_add_mod, Nat.mod_eq_of_lt hps]
    by_cases he : frm + m2 = frm + n
    · rw [if_pos he]
      have : m2 = n := by omega
      subst this
      refine ⟨b2, rfl, hfull b2 t1 fun i => ?_⟩
      simp only [lost, decide_eq_false_iff_not, hto]
      rintro ⟨_, c1, _, c2, _⟩
      omega
    · rw [if_neg he]
      obtain ⟨zs, z1, z2, z3⟩ := hr m2 b2 hm2 t1
      have hl2 := length_splice (xs := xs) (ys := ys) (frm := frm) (to := frm + m2) (source := source) (by omega) (by omega) (by omega)
      obtain ⟨x, hx, hxb⟩ := z1.word hw (k := sw) (by omega)
      have hown : own < b2.words.length := by rw [t1.len, hl2, wordSize_le_iff hw]; omega
      rw [hx]
      simp only [Option.bind_some]
      obtain ⟨b3, p1, p2, p3, p4⟩ := putWord_eq (b := b2) (k := own)
        (fun o => x >>> ((source + m) % w) &&& (wordMask w ((frm + n) % w) - 1#w) ||| o &&& ~~~(wordMask w ((frm + n) % w) - 1#w)) hown
      rw [p1]
      refine ⟨b3, rfl, by simp [p3, t1.len, hl, hl2], by simp [p2, t1.size, hl, hl2], ?_⟩
      intro q r hrw hq
      simp only [List.length_mapIdx, hl] at hq
      rw [p4, List.getElem_mapIdx, getElem_splice (by omega) (by omega) (by omega)]
      by_cases e : q = own
      · rw [if_pos e]
        simp only [BitVec.getLsbD_or, BitVec.getLsbD_and, BitVec.getLsbD_not, BitVec.getLsbD_ushiftRight, hto2,
          getLsbD_lowMask (show n - m2 < w by omega) hrw, hrw, decide_true, Bool.true_and]
        have hqm : (q * w + r) % w = r := by rw [Nat.mul_comm, Nat.mul_add_mod, Nat.mod_eq_of_lt hrw]
        by_cases e2 : r < n - m2
        · rw [dif_pos (by subst e; omega)]
          by_cases e3 : (source + m) % w + r < w
          · have hnl : lost w frm (frm + n) source (q * w + r) = false := by
              simp only [lost, decide_eq_false_iff_not, hto, hpad, hqm]
              rintro ⟨_, _, _, _, c⟩
              omega
            simp only [e2, decide_true, hnl, Bool.false_eq_true, if_false, Bool.and_true, Bool.not_true, Bool.and_false, Bool.or_false]
            rw [hxb _ e3 (by omega), z3 _ (by omega) (by omega) _ (by omega)]
            congr 1; subst e; omega
          · have hnl : lost w frm (frm + n) source (q * w + r) = true := by
              simp only [lost, decide_eq_true_eq, hto, hpad, hqm]
              refine ⟨by subst e; omega, by subst e; omega, ?_, by subst e; omega, by omega⟩
              rintro ⟨c1, c2⟩
              rw [Nat.add_zero] at s3
              rcases s3 with s3 | s3
              · exact c2 s3.1
              · rw [hto] at s3; omega
            simp only [e2, decide_true, hnl, if_true, Bool.and_true, Bool.not_true, Bool.and_false, Bool.or_false]
            exact BitVec.getLsbD_of_ge _ _ (by omega)
        · rw [dif_neg (by subst e; omega)]
          have hnl : lost w frm (frm + n) source (q * w + r) = false := by
            simp only [lost, decide_eq_false_iff_not]
            rintro ⟨_, c, _⟩
            subst e; omega
          simp only [e2, decide_false, hnl, Bool.false_eq_true, if_false, Bool.and_false, Bool.not_false, Bool.and_true, Bool.false_or]
          have hb := bit_of_getElem? (List.getElem?_eq_getElem hown) r
          rw [← hb, show bit b2.words own r = bit b2.words q r from by rw [e], t1.bits q r hrw (by omega), getElem_splice (by omega) (by omega) (by omega), dif_neg (by subst e; omega)]
      · rw [if_neg e, t1.bits q r hrw (by omega), getElem_splice (by omega) (by omega) (by omega)]
        have hqne : ¬ (own * w ≤ q * w + r ∧ q * w + r < own * w + w) := by
          rintro ⟨c1, c2⟩
          rcases Nat.lt_or_gt_of_ne e with c | c
          · have h5 : (q + 1) * w ≤ own * w := Nat.mul_le_mul_right w c
            rw [Nat.add_mul] at h5; omega
          · have h5 : (own + 1) * w ≤ q * w := Nat.mul_le_mul_right w c
            rw [Nat.add_mul] at h5; omega
        have hnl : lost w frm (frm + n) source (q * w + r) = false := by
          simp only [lost, decide_eq_false_iff_not, hto]
          rintro ⟨_, c, _, d, _⟩
          omega
        simp only [hnl, Bool.false_eq_true, if_false]
        by_cases e2 : frm ≤ q * w + r ∧ q * w + r < frm + m2
        · rw [dif_pos e2, dif_pos (by omega)]
        · rw [dif_neg e2, dif_neg (by omega)]

/-- `copy`, when no bit is lost -/
theorem copy_eq (hw : 0 < w) {b : Bits w} {src : Option (Bits w)} {xs ys : List Bool} {frm to source : Nat}
    (h : Shows b xs) (h1 : frm ≤ to) (h2 : to ≤ xs.length) (h3 : source + (to - frm) ≤ ys.length)
    (ho : ∀ o, src = some o → Shows o ys) (hs : src = none → ys = xs ∧ ¬ (source < frm ∧ frm < source + (to - frm)))
    (hsafe : frm / w = to / w ∧ frm % w ≠ 0 ∨ to % w = 0 ∨ (source + (to / w * w - frm)) % w + to % w ≤ w) :
    ∃ b', copy b frm to src source = some b' ∧ Shows b' (splice xs frm to ys source) := by
  obtain ⟨b', e, hb⟩ := copy_exact hw h h1 h2 h3 ho hs
  refine ⟨b', e, ?_⟩
  have : ((splice xs frm to ys source).mapIdx fun i v => if lost w frm to source i then false else v) = splice xs frm to ys source := by
    apply List.ext_getElem
    · simp
    · intro i _ _
      rw [List.getElem_mapIdx, if_neg]
      simp only [lost, decide_eq_true_eq]
      rintro ⟨c1, c2, c3, c4, c5⟩
      have ed := Nat.div_add_mod to w
      rw [Nat.mul_comm] at ed
      have hm := Nat.mod_lt to hw
      have hi : i % w < to % w := by
        have : i = (i - to / w * w) + to / w * w := by omega
        rw [this, Nat.add_mul_mod_self_right, Nat.mod_eq_of_lt (by omega)]
        omega
      rcases hsafe with c | c | c
      · exact c3 c
      · omega
      · omega
  rwa [this] at hb

end Itlib.Bitset
