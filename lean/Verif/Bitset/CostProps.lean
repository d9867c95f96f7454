import Verif.Bitset.Cost
import Verif.MemOut.CostProps

/-! # C82: pushing bits is cheap -/
namespace Itlib.Bitset
open Spec (need)
variable {w : Nat} {G : Growth}

theorem need_eq (hw : 0 < w) (n : Nat) : need w n = wordSize w n := by
  unfold need wordSize
  have e := Nat.div_add_mod n w
  have h := Nat.mod_lt n hw
  generalize n / w = q at *
  generalize n % w = r at *
  subst e
  split
  · rename_i h0
    subst h0
    symm
    rw [Nat.div_eq_iff hw]
    constructor
    · rw [Nat.mul_comm]; omega
    · rw [Nat.mul_comm]; omega
  · symm
    rw [Nat.div_eq_iff hw, Nat.mul_comm, Nat.mul_add]
    omega

theorem wordSize_mono (hw : 0 < w) {a b : Nat} (h : a ≤ b) : wordSize w a ≤ wordSize w b :=
  Nat.div_le_div_right (by omega)

theorem wordSize_add_aligned (hw : 0 < w) {a b : Nat} (h : a % w = 0) : wordSize w (a + b) = wordSize w a + wordSize w b := by
  rw [← need_eq hw, ← need_eq hw, ← need_eq hw]
  have e := Nat.div_add_mod a w
  rw [h, Nat.add_zero] at e
  unfold need
  have h1 : (a + b) % w = b % w := by rw [← e]; simp [Nat.add_mod]
  have h2 : (a + b) / w = a / w + b / w := by
    rw [← e, Nat.mul_add_div hw, Nat.mul_div_cancel_left _ hw]
  rw [h1, h2, h, if_pos rfl]
  split <;> omega

/-! ### Sums over the bitsets of a program -/

/-- the sum of the first `N` values -/
def sumTo (f : Nat → Nat) : Nat → Nat
  | 0 => 0
  | N + 1 => sumTo f N + f N

theorem sumTo_congr {f g : Nat → Nat} {N : Nat} (h : ∀ i, i < N → f i = g i) : sumTo f N = sumTo g N := by
  induction N with
  | zero => rfl
  | succ N ih => simp only [sumTo]; rw [ih fun i hi => h i (by omega), h N (by omega)]

theorem sumTo_update (f : Nat → Nat) {i N : Nat} (x : Nat) (h : i < N) :
    sumTo (Function.update f i x) N + f i = sumTo f N + x := by
  induction N with
  | zero => omega
  | succ N ih =>
    simp only [sumTo]
    by_cases e : i = N
    · subst e
      rw [sumTo_congr (g := f) fun j hj => Function.update_of_ne (by omega) _ _, Function.update_self]
      omega
    · rw [Function.update_of_ne (Ne.symm e)]
      have := ih (by omega)
      omega

/-! ### The potential -/

/-- three times the words of bitset `i`, less twice its capacity -/
def pot (st : Store w) (cap : Caps) (i : Nat) : Nat :=
  match st i with
  | none => 0
  | some b => 3 * b.words.length - 2 * cap i

theorem pot_update (st : Store w) (cap : Caps) (i : Nat) (b : Bits w) (c : Nat) :
    pot (Function.update st i (some b)) (Function.update cap i c) = Function.update (pot st cap) i (3 * b.words.length - 2 * c) := by
  funext j
  by_cases e : j = i
  · subst e; simp [pot]
  · simp [pot, Function.update_of_ne e]

/-- the buffers hold their words -/
def Room (st : Store w) (cap : Caps) : Prop := ∀ i b, st i = some b → b.words.length ≤ cap i

theorem Room.update {st : Store w} {cap : Caps} (h : Room st cap) (i : Nat) {b : Bits w} {c : Nat} (hb : b.words.length ≤ c) :
    Room (Function.update st i (some b)) (Function.update cap i c) := by
  intro j b' e
  by_cases hj : j = i
  · subst hj
    simp only [Function.update_self, Option.some.injEq] at e ⊢
    subst e; exact hb
  · rw [Function.update_of_ne hj] at e ⊢
    exact h j b' e

theorem refit_room (hG : G.Lawful) {s c n : Nat} (h : s ≤ c) : n ≤ (refit G s c n).1 := by
  unfold refit
  split
  · assumption
  · exact hG.1 s c n h (by omega)

theorem refit_cost (hG : G.Geometric) {s c n : Nat} (h : s ≤ c) :
    (refit G s c n).2 + (3 * n - 2 * (refit G s c n).1) ≤ (3 * s - 2 * c) + 6 * (n - s) := by
  unfold refit
  split
  · simp only; omega
  · have := hG s c n h (by omega)
    simp only; omega

theorem refill_room (hG : G.Lawful) (c n : Nat) : n ≤ (refill G c n).1 := by
  unfold refill
  split
  · assumption
  · exact hG.2 c n (by omega)

theorem refill_cost (hG : G.Lawful) (c n : Nat) : (refill G c n).2 + (3 * n - 2 * (refill G c n).1) ≤ 6 * n := by
  have := refill_room hG c n
  simp only [refill] at this ⊢
  omega

/-! ### One call -/

/-- the names used in a call are smaller -/
def COp.reach : COp w → Nat
  | .reserve i _ => i + 1
  | .op o => match o with
    | .new i _ _ | .test i _ | .set i _ | .reset i _ | .setTo i _ _ | .flip i _ | .resize i _ | .pushBack i _ | .assign i _
    | .size i | .empty i | .all i | .any i | .none i => i + 1
    | .clone i j | .copyAssign i j | .move i j | .append i j | .copy i _ _ j _ => max i j + 1

/-- nothing is made or moved, and words and capacities stay -/
theorem same_cost {st st' : Store w} {cap : Caps} (h : Room st cap)
    (hl : ∀ i, (st' i).map (fun b => b.words.length) = (st i).map fun b => b.words.length) :
    Room st' cap ∧ pot st' cap = pot st cap := by
  constructor
  · intro i b e
    have := hl i
    rw [e] at this
    cases hs : st i with
    | none => simp [hs] at this
    | some c =>
      simp only [hs, Option.map_some, Option.some.injEq] at this
      rw [this]; exact h i c hs
  · funext i
    have := hl i
    unfold pot
    cases e : st' i <;> cases e' : st i <;> simp [e, e'] at this ⊢
    omega

/-- words of the bitsets, from the specification -/
theorem rel_words (hw : 0 < w) {st : Store w} {y : Spec.Sys} (h : Rel st y) (i : Nat) :
    (st i).map (fun b => b.words.length) = (y i).map fun xs => need w xs.length := by
  have := h i
  cases e : st i <;> cases e' : y i <;> simp [e, e'] at this ⊢
  rw [this.len, need_eq hw]

theorem rel_size {st : Store w} {y : Spec.Sys} (h : Rel st y) (i : Nat) : ((st i).map Bits.size).getD 0 = Spec.length y i := by
  have := h i
  unfold Spec.length
  cases e : st i <;> cases e' : y i <;> simp [e, e'] at this ⊢
  exact this.size

theorem need_zero (w : Nat) : need w 0 = 0 := by simp [need]

theorem rel_words0 (hw : 0 < w) {st : Store w} {y : Spec.Sys} (h : Rel st y) (i : Nat) :
    ((st i).map (fun b => b.words.length)).getD 0 = need w (Spec.length y i) := by
  rw [rel_words hw h]
  unfold Spec.length
  cases y i <;> simp [need_zero]

/-- bitset `i` gets `n` words -/
theorem target_cost {st : Store w} {cap : Caps} {i N n d : Nat} {b : Bits w} {p : Nat × Nat} (hr : Room st cap) (hN : i < N)
    (hn : b.words.length = n) (h1 : n ≤ p.1) (h2 : p.2 + (3 * n - 2 * p.1) ≤ pot st cap i + 6 * d) :
    Room (Function.update st i (some b)) (capOn cap i p).1 ∧
      (capOn cap i p).2 + sumTo (pot (Function.update st i (some b)) (capOn cap i p).1) N ≤ sumTo (pot st cap) N + 6 * d := by
  refine ⟨hr.update i (by omega), ?_⟩
  simp only [capOn]
  rw [pot_update, hn]
  have := sumTo_update (pot st cap) (3 * n - 2 * p.1) hN
  omega

theorem on_ok {st st' : Store w} {i : Nat} {f : Bits w → Option (Bits w)} {r} (h : on st i f = some (r, st')) :
    ∃ b b', st i = some b ∧ f b = some b' ∧ st' = Function.update st i (some b') := by
  cases hb : st i with
  | none => simp [on, hb] at h
  | some b =>
    cases hf : f b with
    | none => simp [on, hb, hf] at h
    | some b' =>
      simp only [on, hb, hf, Option.bind_eq_bind, Option.bind_some, Option.some.injEq, Prod.mk.injEq] at h
      exact ⟨b, b', rfl, hf, h.2.symm⟩

theorem rel_some (hw : 0 < w) {st : Store w} {y : Spec.Sys} (h : Rel st y) {i : Nat} {b : Bits w} (e : st i = some b) :
    ∃ xs, y i = some xs ∧ b.words.length = need w xs.length ∧ Spec.length y i = xs.length := by
  have := h i
  cases e' : y i with
  | none => simp [e, e'] at this
  | some xs =>
    simp only [e, e'] at this
    exact ⟨xs, rfl, by rw [this.len, need_eq hw], by simp [Spec.length, e']⟩

/-- `resize`, `push_back`, `append`, once the new length is known -/
theorem grown_cost (hw : 0 < w) (hG : G.Lawful) (hGeo : G.Geometric) {st st' : Store w} {cap : Caps} {y y' : Spec.Sys} {i N m : Nat}
    {f : Bits w → Option (Bits w)} {r} (hrel : Rel st y) (hrel' : Rel st' y') (hr : Room st cap) (hN : i < N) (h : on st i f = some (r, st'))
    (hm : ∀ zs, y' i = some zs → zs.length = m) :
    Room st' (capOn cap i (refit G (need w (Spec.length y i)) (cap i) (need w m))).1 ∧
      (capOn cap i (refit G (need w (Spec.length y i)) (cap i) (need w m))).2 +
          sumTo (pot st' (capOn cap i (refit G (need w (Spec.length y i)) (cap i) (need w m))).1) N ≤
        sumTo (pot st cap) N + 6 * (need w m - need w (Spec.length y i)) := by
  obtain ⟨b, b', e, -, rfl⟩ := on_ok h
  obtain ⟨xs, -, e2, e3⟩ := rel_some hw hrel e
  obtain ⟨zs, f1, f2, -⟩ := rel_some hw hrel' (Function.update_self i (some b') st)
  have hb := hr i b e
  rw [e2, ← e3] at hb
  rw [hm zs f1] at f2
  refine target_cost hr hN f2 (refit_room hG hb) ?_
  have := refit_cost (n := need w m) hGeo hb
  rw [show pot st cap i = 3 * need w (Spec.length y i) - 2 * cap i by simp [pot, e, e2, e3]]
  exact this

/-- One call: what it costs is paid by what it asks for and what the potential loses. -/
theorem call_cost (hw : 0 < w) (hG : G.Lawful) (hGeo : G.Geometric) {o : COp w} {st : Store w} {cap : Caps} {y y' : Spec.Sys} {N : Nat}
    (hrel : Rel st y) (hr : Room st cap) (hN : o.reach ≤ N) (hsafe : Spec.SafeC o y)
    (hs : Spec.stepC o y = some y') :
    ∃ c st' cap', callC G o st cap = some (c, st', cap') ∧ Rel st' y' ∧ Room st' cap' ∧
      c + sumTo (pot st' cap') N ≤ sumTo (pot st cap) N + 6 * Spec.demand o y := by
  cases o with
  | reserve i n =>
    simp only [COp.reach] at hN
    simp only [Spec.stepC, Option.map_eq_some_iff] at hs
    obtain ⟨xs, hy, rfl⟩ := hs
    obtain ⟨b, e, hb⟩ := hrel.get hy
    have hl : b.words.length = need w (Spec.length y i) := by rw [hb.len, need_eq hw]; simp [Spec.length, hy]
    by_cases hc : wordSize w n ≤ cap i
    · exact ⟨0, st, cap, by simp [callC, e, hc], hrel, hr, by omega⟩
    · refine ⟨b.words.length, st, Function.update cap i (G.fit (cap i) (wordSize w n)), by simp [callC, e, hc], hrel, ?_, ?_⟩
      · have := hG.2 (cap i) (wordSize w n) (by omega)
        have h1 := hr i b e
        intro j b' ej
        by_cases hj : j = i
        · subst hj
          rw [e] at ej; cases ej
          rw [Function.update_self]; omega
        · rw [Function.update_of_ne hj]; exact hr j b' ej
      · have := hG.2 (cap i) (wordSize w n) (by omega)
        have hu : Function.update st i (some b) = st := by rw [← e, Function.update_eq_self]
        have h2 := pot_update st cap i b (G.fit (cap i) (wordSize w n))
        rw [hu] at h2
        rw [h2]
        have h3 := sumTo_update (pot st cap) (3 * b.words.length - 2 * G.fit (cap i) (wordSize w n)) hN
        have h4 : pot st cap i = 3 * b.words.length - 2 * cap i := by simp [pot, e]
        simp only [Spec.demand]
        omega
  | op o =>
    simp only [Spec.stepC, Option.map_eq_some_iff] at hs
    obtain ⟨⟨r, y1⟩, hs, rfl⟩ := hs
    obtain ⟨st', e, hrel'⟩ := call_refines hw hrel hsafe hs
    refine ⟨(buffers G o st cap).2, st', (buffers G o st cap).1, by simp [callC, e], hrel', ?_⟩
    -- calls that leave the lengths
    have quiet : buffers G o st cap = (cap, 0) → (∀ j, (y1 j).map List.length = (y j).map List.length) →
        Room st' (buffers G o st cap).1 ∧ (buffers G o st cap).2 + sumTo (pot st' (buffers G o st cap).1) N ≤
          sumTo (pot st cap) N + 6 * Spec.demand (.op o) y := by
      intro hb hl
      rw [hb]
      have := same_cost (st' := st') hr fun j => by
        rw [rel_words hw hrel', rel_words hw hrel]
        have := hl j
        cases h1 : y1 j <;> cases h2 : y j <;> simp [h1, h2] at this ⊢
        rw [this]
      exact ⟨this.1, by rw [this.2]; omega⟩
    -- copies
    have fresh : ∀ i b n c, i < N → st' = Function.update st i (some b) → b.words.length = n →
        Room st' (capOn cap i (refill G c n)).1 ∧ (capOn cap i (refill G c n)).2 + sumTo (pot st' (capOn cap i (refill G c n)).1) N ≤
          sumTo (pot st cap) N + 6 * n := by
      intro i b n c hi hst hn
      subst hst
      refine target_cost hr hi hn (refill_room hG c n) ?_
      have := refill_cost hG c n
      omega
    have upd : ∀ (i : Nat) (xs zs : List Bool), y i = some xs → zs.length = xs.length → ∀ j,
        ((Function.update y i (some zs)) j).map List.length = (y j).map List.length := by
      intro i xs zs hy hl j
      by_cases hj : j = i
      · subst hj; simp [hy, hl]
      · rw [Function.update_of_ne hj]
    cases o with
    | new i n value =>
      simp only [call, Option.some.injEq, Prod.mk.injEq] at e
      have := fresh i _ (wordSize w n) 0 (by simp only [COp.reach] at hN; omega) e.2.symm (by simp [new])
      simpa only [buffers, Spec.demand, need_eq hw] using this
    | clone i src =>
      simp only [COp.reach] at hN
      cases hb : st src with
      | none => simp [call, hb] at e
      | some b =>
        simp only [call, hb, Option.bind_eq_bind, Option.bind_some, Option.some.injEq, Prod.mk.injEq] at e
        obtain ⟨xs, -, e2, e3⟩ := rel_some hw hrel hb
        have := fresh i b (need w (Spec.length y src)) 0 (by omega) e.2.symm (by rw [e2, e3])
        simpa only [buffers, Spec.demand, rel_words0 hw hrel] using this
    | copyAssign i src =>
      simp only [COp.reach] at hN
      cases hb : st src with
      | none => simp [call, hb] at e
      | some b =>
        by_cases hi : i = src
        · subst hi
          obtain ⟨xs, e1, -, -⟩ := rel_some hw hrel hb
          simp only [Spec.step, e1, Option.bind_eq_bind, Option.bind_some, Option.some.injEq, Prod.mk.injEq] at hs
          exact quiet (by simp [buffers]) (by rw [← hs.2]; exact upd i xs xs e1 rfl)
        · simp only [call, hb, Option.bind_eq_bind, Option.bind_some, Option.some.injEq, Prod.mk.injEq] at e
          obtain ⟨xs, -, e2, e3⟩ := rel_some hw hrel hb
          have := fresh i b (need w (Spec.length y src)) (cap i) (by omega) e.2.symm (by rw [e2, e3])
          simpa only [buffers, Spec.demand, rel_words0 hw hrel, hi, if_false] using this
    | move i src =>
      simp only [COp.reach] at hN
      cases hb : st src with
      | none => simp [call, hb] at e
      | some b =>
        simp only [call, hb, Option.bind_eq_bind, Option.bind_some, Option.some.injEq, Prod.mk.injEq] at e
        obtain ⟨-, rfl⟩ := e
        have hne : i ≠ src := by
          rintro rfl
          simp only [Spec.step] at hs
          cases hy : y i <;> simp [hy] at hs
        simp only [buffers, Spec.demand]
        refine ⟨(hr.update i (hr src b hb)).update src (by simp), ?_⟩
        rw [pot_update, pot_update]
        have h1 := sumTo_update (pot st cap) (3 * b.words.length - 2 * cap src) (i := i) (N := N) (by omega)
        have h2 := sumTo_update (Function.update (pot st cap) i (3 * b.words.length - 2 * cap src))
          (3 * ([] : List (BitVec w)).length - 2 * 0) (i := src) (N := N) (by omega)
        rw [Function.update_of_ne (Ne.symm hne)] at h2
        have h3 : pot st cap src = 3 * b.words.length - 2 * cap src := by simp [pot, hb]
        simp only [List.length_nil] at h2 ⊢
        omega
    | resize i n =>
      simp only [COp.reach] at hN
      have hm : ∀ zs, y1 i = some zs → zs.length = n := by
        intro zs hz
        cases hy : y i with
        | none => simp [Spec.step, hy] at hs
        | some xs =>
          simp only [Spec.step, hy, Option.bind_eq_bind, Option.bind_some, Option.some.injEq, Prod.mk.injEq] at hs
          rw [← hs.2, Function.update_self] at hz
          cases hz; simp; omega
      have := grown_cost hw hG hGeo hrel hrel' hr hN e hm
      simpa only [buffers, Spec.demand, rel_words0 hw hrel, ← need_eq hw] using this
    | pushBack i v =>
      simp only [COp.reach] at hN
      have hm : ∀ zs, y1 i = some zs → zs.length = Spec.length y i + 1 := by
        intro zs hz
        cases hy : y i with
        | none => simp [Spec.step, hy] at hs
        | some xs =>
          simp only [Spec.step, hy, Option.bind_eq_bind, Option.bind_some, Option.some.injEq, Prod.mk.injEq] at hs
          rw [← hs.2, Function.update_self] at hz
          cases hz; simp [Spec.length, hy]
      have := grown_cost hw hG hGeo hrel hrel' hr hN e hm
      simpa only [buffers, Spec.demand, rel_words0 hw hrel, rel_size hrel, ← need_eq hw] using this
    | assign i ws =>
      simp only [COp.reach] at hN
      obtain ⟨b, b', -, h2, h3⟩ := on_ok e
      simp only [Option.some.injEq] at h2
      have := fresh i b' ws.length (cap i) (by omega) h3 (by rw [← h2]; rfl)
      simpa only [buffers, Spec.demand] using this
    | append i j =>
      simp only [COp.reach] at hN
      cases hyi : y i with
      | none => simp [Spec.step, hyi] at hs
      | some xs =>
        cases hyj : y j with
        | none => simp [Spec.step, hyi, hyj] at hs
        | some ys =>
          simp only [Spec.step, hyi, hyj, Option.bind_eq_bind, Option.bind_some, Option.some.injEq, Prod.mk.injEq] at hs
          have li : Spec.length y i = xs.length := by simp [Spec.length, hyi]
          have lj : Spec.length y j = ys.length := by simp [Spec.length, hyj]
          by_cases h0 : need w ys.length = 0
          · have : ys = [] := by
              rw [need_eq hw, wordSize_zero_iff hw] at h0
              exact List.length_eq_zero_iff.mp h0
            subst this
            refine quiet (by simp only [buffers, rel_words0 hw hrel, lj, h0, if_true]) ?_
            rw [← hs.2]
            exact upd i xs _ hyi (by simp)
          · obtain ⟨o, ho, hb⟩ := hrel.get hyj
            simp only [call, ho, Option.bind_eq_bind, Option.bind_some] at e
            have hm : ∀ zs, y1 i = some zs → zs.length = Spec.length y i + Spec.length y j := by
              intro zs hz
              rw [← hs.2, Function.update_self] at hz
              cases hz; simp [li, lj]
            have := grown_cost hw hG hGeo hrel hrel' hr (N := N) (by omega) e hm
            by_cases hp : Spec.length y i % w = 0
            · have hadd : need w (Spec.length y i) + need w (Spec.length y j) = need w (Spec.length y i + Spec.length y j) := by
                simp only [need_eq hw]; rw [wordSize_add_aligned hw hp]
              simpa only [buffers, Spec.demand, rel_words0 hw hrel, rel_size hrel, ← need_eq hw, lj ▸ h0, if_false, hp, if_true, hadd] using this
            · simpa only [buffers, Spec.demand, rel_words0 hw hrel, rel_size hrel, ← need_eq hw, lj ▸ h0, if_false, hp] using this
    | copy i frm to j source =>
      refine quiet rfl ?_
      simp only [Spec.step] at hs
      cases hyi : y i with
      | none => simp [hyi] at hs
      | some xs =>
        cases hyj : y j with
        | none => simp [hyi, hyj] at hs
        | some ys =>
          simp only [hyi, hyj, Option.bind_eq_bind, Option.bind_some] at hs
          split at hs
          · rename_i hc
            simp only [Option.some.injEq, Prod.mk.injEq] at hs
            rw [← hs.2]
            refine upd i xs _ hyi ?_
            simp [Spec.splice]; omega
          · cases hs
    | set i k | reset i k | setTo i k v =>
      all_goals
        refine quiet rfl ?_
        simp only [Spec.step] at hs
        cases hyi : y i with
        | none => simp [hyi] at hs
        | some xs =>
          simp only [hyi, Option.bind_eq_bind, Option.bind_some] at hs
          split at hs
          · simp only [Option.some.injEq, Prod.mk.injEq] at hs
            rw [← hs.2]
            exact upd i xs _ hyi (by simp)
          · cases hs
    | flip i k =>
      refine quiet rfl ?_
      simp only [Spec.step] at hs
      cases hyi : y i with
      | none => simp [hyi] at hs
      | some xs =>
        cases hk : xs[k]? with
        | none => simp [hyi, hk] at hs
        | some v =>
          simp only [hyi, hk, Option.bind_eq_bind, Option.bind_some, Option.some.injEq, Prod.mk.injEq] at hs
          rw [← hs.2]
          exact upd i xs _ hyi (by simp)
    | test i k =>
      refine quiet rfl ?_
      simp only [Spec.step] at hs
      cases hyi : y i with
      | none => simp [hyi] at hs
      | some xs =>
        cases hk : xs[k]? with
        | none => simp [hyi, hk] at hs
        | some v =>
          simp only [hyi, hk, Option.bind_eq_bind, Option.bind_some, Option.some.injEq, Prod.mk.injEq] at hs
          rw [← hs.2]; exact fun _ => rfl
    | size i | empty i | all i | any i | none i =>
      all_goals
        refine quiet rfl ?_
        simp only [Spec.step] at hs
        cases hyi : y i with
        | none => simp [hyi] at hs
        | some xs =>
          simp only [hyi, Option.bind_eq_bind, Option.bind_some, Option.some.injEq, Prod.mk.injEq] at hs
          rw [← hs.2]; exact fun _ => rfl

/-! ### Histories -/

/-- a number above all names of a history -/
def reach : List (COp w) → Nat
  | [] => 0
  | o :: ops => max o.reach (reach ops)

theorem work_cost (hw : 0 < w) (hG : G.Lawful) (hGeo : G.Geometric) {ops : List (COp w)} {st : Store w} {cap : Caps} {y y' : Spec.Sys}
    {N d : Nat} (hrel : Rel st y) (hr : Room st cap) (hN : reach ops ≤ N) (hsafe : Spec.SafeRunC ops y) (hs : Spec.runC ops y = some (d, y')) :
    ∃ c st' cap', work G ops st cap = some (c, st', cap') ∧ Rel st' y' ∧ Room st' cap' ∧
      c + sumTo (pot st' cap') N ≤ sumTo (pot st cap) N + 6 * d := by
  induction ops generalizing st cap y d with
  | nil =>
    simp only [Spec.runC, Option.some.injEq, Prod.mk.injEq] at hs
    obtain ⟨rfl, rfl⟩ := hs
    exact ⟨0, st, cap, rfl, hrel, hr, by omega⟩
  | cons o ops ih =>
    simp only [reach] at hN
    simp only [Spec.runC, Option.bind_eq_bind, Option.bind_eq_some_iff, Option.some.injEq] at hs
    obtain ⟨y1, h1, ⟨d1, y2⟩, h2, h3⟩ := hs
    simp only [Prod.mk.injEq] at h3
    obtain ⟨rfl, rfl⟩ := h3
    obtain ⟨c1, st1, cap1, e1, r1, m1, k1⟩ := call_cost hw hG hGeo (N := N) hrel hr (by omega) hsafe.1 h1
    obtain ⟨c2, st2, cap2, e2, r2, m2, k2⟩ := ih r1 m1 (by omega) (hsafe.2 _ h1) h2
    exact ⟨c1 + c2, st2, cap2, by simp [work, e1, e2], r2, m2, by omega⟩

theorem sumTo_zero {f : Nat → Nat} (h : ∀ i, f i = 0) (N : Nat) : sumTo f N = 0 := by
  induction N with
  | zero => rfl
  | succ N ih => simp [sumTo, ih, h]

/-- C82, in part. Over a buffer whose `resize` and `insert` grow by half at least: in any program with any number of bitsets, all words that the
buffers make, fill and move, reallocations included, are no more than six times the words by which the calls make bitsets longer (copies count as
a whole, and a `reserve` as the words of its bitset). Missing: the calls excluded by `Spec.Safe` (see C19). -/
theorem C82_amortised_partial (hw : 0 < w) (hG : G.Lawful) (hGeo : G.Geometric) {ops : List (COp w)} {d : Nat} {y : Spec.Sys}
    (hsafe : Spec.SafeRunC ops fun _ => none) (hs : Spec.runC ops (fun _ => none) = some (d, y)) :
    ∃ c, programWork G ops = some c ∧ c ≤ 6 * d := by
  obtain ⟨c, st, cap, e, -, -, h⟩ := work_cost hw hG hGeo (N := reach ops) rel_init (cap := fun _ => 0) (fun i b e => by cases e)
    (Nat.le_refl _) hsafe hs
  refine ⟨c, by simp [programWork, e], ?_⟩
  rw [sumTo_zero (f := pot Store.init fun _ => 0) fun i => rfl] at h
  omega

/-! ### Only pushing -/

/-- `push_back` of each of the bits -/
def pushes (i : Nat) (vs : List Bool) : List (COp w) := vs.map fun v => .op (.pushBack i v)

theorem need_mono (hw : 0 < w) {a b : Nat} (h : a ≤ b) : need w a ≤ need w b := by
  rw [need_eq hw, need_eq hw]; exact wordSize_mono hw h

theorem runC_pushes (hw : 0 < w) (i : Nat) (vs : List Bool) (y : Spec.Sys) (xs : List Bool) (hy : y i = some xs) :
    ∃ y', Spec.runC (pushes (w := w) i vs) y = some (need w (xs.length + vs.length) - need w xs.length, y') ∧
      y' i = some (xs ++ vs) ∧ Spec.SafeRunC (pushes (w := w) i vs) y := by
  induction vs generalizing y xs with
  | nil => exact ⟨y, by simp [pushes, Spec.runC], by simpa using hy, trivial⟩
  | cons v vs ih =>
    have e1 : Spec.stepC (.op (.pushBack i v) : COp w) y = some (Function.update y i (some (xs ++ [v]))) := by
      simp [Spec.stepC, Spec.step, hy]
    obtain ⟨y', h1, h2, h3⟩ := ih (Function.update y i (some (xs ++ [v]))) (xs ++ [v]) (by simp)
    have m1 := need_mono hw (a := xs.length) (b := xs.length + 1) (by omega)
    have m2 := need_mono hw (a := xs.length + 1) (b := xs.length + 1 + vs.length) (by omega)
    refine ⟨y', ?_, by simpa using h2, trivial, fun y2 h => ?_⟩
    · simp only [List.length_append, List.length_cons, List.length_nil, Nat.zero_add] at h1
      simp only [pushes] at h1
      simp only [pushes, List.map_cons, Spec.runC, e1, h1, Option.bind_eq_bind, Option.bind_some, Option.some.injEq, Prod.mk.injEq, and_true,
        Spec.demand, Spec.length, hy, Option.map_some, Option.getD_some, List.length_cons]
      rw [show xs.length + (vs.length + 1) = xs.length + 1 + vs.length by omega]
      omega
    · rw [e1] at h
      cases h
      exact h3

/-- C82. Pushing `n` bits onto an empty bitset, one by one: the buffer makes and moves no more than six words for each word that the bits need. -/
theorem C82_push_back (hw : 0 < w) (hG : G.Lawful) (hGeo : G.Geometric) (vs : List Bool) :
    ∃ c, programWork G (.op (.new 0 0 (0#w)) :: pushes 0 vs) = some c ∧ c ≤ 6 * need w vs.length := by
  obtain ⟨y, h1, -, h3⟩ := runC_pushes hw 0 vs (Function.update (fun _ => none : Spec.Sys) 0 (some [])) [] (by simp)
  have e1 : Spec.stepC (.op (.new 0 0 (0#w))) (fun _ => none) = some (Function.update (fun _ => none : Spec.Sys) 0 (some [])) := by
    simp [Spec.stepC, Spec.step]
  refine C82_amortised_partial hw hG hGeo (y := y) ⟨trivial, fun y' h => ?_⟩ ?_
  · rw [e1] at h; cases h; exact h3
  · simp only [Spec.runC, e1, h1, Option.bind_eq_bind, Option.bind_some, Spec.demand, need_zero, List.length_nil, Nat.zero_add, Nat.sub_zero]

/-- one push, exactly -/
theorem push_work (hw : 0 < w) {st : Store w} {cap : Caps} {y : Spec.Sys} {i : Nat} {xs : List Bool} (hrel : Rel st y) (hy : y i = some xs)
    (v : Bool) :
    ∃ st', Rel st' (Function.update y i (some (xs ++ [v]))) ∧
      callC G (.op (.pushBack i v)) st cap = some ((refit G (need w xs.length) (cap i) (need w (xs.length + 1))).2, st',
        Function.update cap i (refit G (need w xs.length) (cap i) (need w (xs.length + 1))).1) := by
  obtain ⟨st', e, hr⟩ := call_refines hw (op := .pushBack i v) hrel trivial
    (show Spec.step (.pushBack i v) y = some (.unit, Function.update y i (some (xs ++ [v]))) by simp [Spec.step, hy])
  refine ⟨st', hr, ?_⟩
  have hl : Spec.length y i = xs.length := by simp [Spec.length, hy]
  simp only [callC, e, Option.bind_eq_bind, Option.bind_some, buffers, rel_words0 hw hrel, rel_size hrel, hl, ← need_eq hw, capOn]

theorem push_room (hw : 0 < w) (i : Nat) (vs : List Bool) {st : Store w} {cap : Caps} {y : Spec.Sys} {xs : List Bool} (hrel : Rel st y)
    (hy : y i = some xs) (hc : need w (xs.length + vs.length) ≤ cap i) :
    ∃ st', work G (pushes i vs) st cap = some (need w (xs.length + vs.length) - need w xs.length, st', cap) := by
  induction vs generalizing st y xs with
  | nil => exact ⟨st, by simp [pushes, work]⟩
  | cons v vs ih =>
    simp only [List.length_cons] at hc ⊢
    have m1 := need_mono hw (a := xs.length) (b := xs.length + 1) (by omega)
    have m2 := need_mono hw (a := xs.length + 1) (b := xs.length + (vs.length + 1)) (by omega)
    obtain ⟨st1, r1, e1⟩ := push_work (G := G) hw (cap := cap) hrel hy v
    have hf : refit G (need w xs.length) (cap i) (need w (xs.length + 1)) = (cap i, need w (xs.length + 1) - need w xs.length) := by
      simp only [refit]; rw [if_pos (by omega)]
    rw [hf, Function.update_eq_self] at e1
    have hlen : xs.length + 1 + vs.length = xs.length + (vs.length + 1) := by omega
    obtain ⟨st2, e2⟩ := ih (xs := xs ++ [v]) r1 (by simp) (by simpa [hlen] using hc)
    simp only [pushes] at e2
    refine ⟨st2, ?_⟩
    simp only [pushes, List.map_cons, work, e1, e2, Option.bind_eq_bind, Option.bind_some, List.length_append, List.length_cons,
      List.length_nil, Nat.zero_add, hlen, Option.some.injEq, Prod.mk.injEq, and_true]
    omega

/-- C82. After `reserve(n)`, pushing bits up to a size of `n` moves no word: exactly the new words are made; whatever the buffer's way to grow. -/
theorem C82_reserve (hw : 0 < w) (hG : G.Lawful) {st : Store w} {cap : Caps} {y : Spec.Sys} {i n : Nat} {xs vs : List Bool} (hrel : Rel st y)
    (hy : y i = some xs) (hn : xs.length + vs.length ≤ n) :
    ∃ c st1 cap1 st2, callC G (.reserve i n) st cap = some (c, st1, cap1) ∧
      work G (pushes i vs) st1 cap1 = some (need w (xs.length + vs.length) - need w xs.length, st2, cap1) := by
  obtain ⟨b, e, hb⟩ := hrel.get hy
  have m := need_mono hw hn
  rw [need_eq hw n] at m
  by_cases hc : wordSize w n ≤ cap i
  · obtain ⟨st2, e2⟩ := push_room (G := G) hw i vs (cap := cap) hrel hy (by omega)
    exact ⟨0, st, cap, st2, by simp [callC, e, hc], e2⟩
  · have hf := hG.2 (cap i) (wordSize w n) (by omega)
    obtain ⟨st2, e2⟩ := push_room (G := G) hw i vs (cap := Function.update cap i (G.fit (cap i) (wordSize w n))) hrel hy
      (by rw [Function.update_self]; omega)
    exact ⟨b.words.length, st, _, st2, by simp [callC, e, hc], e2⟩

/-- a buffer that always allocates exactly what it is asked for -/
def exact : Growth := ⟨fun _ _ n => n, fun _ n => n⟩

theorem need_succ (hw : 0 < w) (n : Nat) : need w (n + 1) = if n % w = 0 then need w n + 1 else need w n := by
  by_cases h1 : w = 1
  · subst h1; simp [need, Nat.mod_one]
  have e := Nat.div_add_mod n w
  have hlt := Nat.mod_lt n hw
  by_cases hs : n % w + 1 = w
  · have hd : (n + 1) / w = n / w + 1 := by
      rw [Nat.div_eq_iff hw, Nat.add_mul, Nat.mul_comm]; omega
    have hm : (n + 1) % w = 0 := by
      have := Nat.div_add_mod (n + 1) w
      rw [hd, Nat.mul_add] at this
      omega
    unfold need
    rw [hm, hd, if_pos rfl, if_neg (by omega), if_neg (by omega)]
  · have hd : (n + 1) / w = n / w := by
      rw [Nat.div_eq_iff hw, Nat.mul_comm]; omega
    have hm : (n + 1) % w = n % w + 1 := by
      have := Nat.div_add_mod (n + 1) w
      rw [hd] at this
      omega
    unfold need
    rw [hm, hd, if_neg (by omega)]
    split <;> rfl

theorem exact_work (hw : 0 < w) (i : Nat) (vs : List Bool) {st : Store w} {cap : Caps} {y : Spec.Sys} {xs : List Bool} (hrel : Rel st y)
    (hy : y i = some xs) (hc : cap i = need w xs.length) :
    ∃ c st' cap', work exact (pushes i vs) st cap = some (c, st', cap') ∧
      2 * c + need w xs.length * (need w xs.length + 1) = need w (xs.length + vs.length) * (need w (xs.length + vs.length) + 1) := by
  induction vs generalizing st cap y xs with
  | nil => exact ⟨0, st, cap, by simp [pushes, work], by simp⟩
  | cons v vs ih =>
    obtain ⟨st1, r1, e1⟩ := push_work (G := exact) hw (cap := cap) hrel hy v
    have hlen : (xs ++ [v]).length + vs.length = xs.length + (v :: vs).length := by simp; omega
    have h1 : (refit exact (need w xs.length) (cap i) (need w (xs.length + 1))).1 = need w (xs ++ [v]).length := by
      rw [hc, refit]
      split
      · have := need_mono hw (a := xs.length) (b := xs.length + 1) (by omega)
        simp; omega
      · simp [exact]
    obtain ⟨c, st2, cap2, e2, h2⟩ := ih (xs := xs ++ [v]) (cap := Function.update cap i (refit exact (need w xs.length) (cap i) (need w (xs.length + 1))).1) r1
      (by simp) (by rw [Function.update_self, h1])
    simp only [pushes] at e2
    refine ⟨_, st2, cap2, by
      simp only [pushes, List.map_cons, work, e1, e2, Option.bind_eq_bind, Option.bind_some]; rfl, ?_⟩
    rw [hlen] at h2
    rw [← h2, hc]
    simp only [List.length_append, List.length_cons, List.length_nil, Nat.zero_add, refit]
    rw [need_succ hw]
    by_cases hm : xs.length % w = 0
    · simp only [hm, if_true]
      rw [if_neg (by omega)]
      generalize need w xs.length = q
      have : (q + 1) * (q + 1 + 1) = q * (q + 1) + 2 * (q + 1) := by
        rw [Nat.add_mul, Nat.mul_add q (q + 1) 1]; omega
      simp only
      omega
    · simp only [hm, if_false]
      rw [if_pos (Nat.le_refl _)]
      simp

/-- C82: that the buffer grows by more than it is asked for is needed, and the standard does not promise it. `push_back` calls `resize` of the
buffer (dynamic_bitset.hpp:268), not its `push_back`; if `resize` allocates exactly what is needed, as the standard allows, pushing the bits of `k`
words one by one makes and moves `k (k + 1) / 2` words. -/
theorem C82_exact_quadratic (hw : 0 < w) (vs : List Bool) :
    ∃ c, programWork exact (.op (.new 0 0 (0#w)) :: pushes 0 vs) = some c ∧ 2 * c = need w vs.length * (need w vs.length + 1) := by
  obtain ⟨st', e, hr⟩ := call_refines hw (op := .new 0 0 (0#w)) rel_init trivial
    (show Spec.step (.new 0 0 (0#w)) (fun _ => none) = some (.unit, Function.update (fun _ => none : Spec.Sys) 0 (some [])) by simp [Spec.step])
  have h0 : buffers exact (.new 0 0 (0#w)) Store.init (fun _ => 0) = (Function.update (fun _ => 0) 0 0, 0) := by
    simp only [buffers, refill, capOn, ← need_eq hw, need_zero, Nat.le_refl, if_true]
  obtain ⟨c, st2, cap2, e2, h2⟩ := exact_work hw 0 vs (xs := []) (cap := Function.update (fun _ => 0) 0 0) hr (by simp) (by simp [need_zero])
  refine ⟨c, ?_, by simpa [need_zero] using h2⟩
  simp only [programWork, work, callC, e, h0, e2, Option.bind_eq_bind, Option.bind_some, Option.map_some, Nat.zero_add]

/-! ### The buffers of the library -/

theorem stdVector_lawful : stdVector.Lawful := ⟨fun _ _ _ _ _ => Nat.le_max_right _ _, fun _ _ _ => Nat.le_refl _⟩

/-- the usual `std::vector` doubles -/
theorem C82_std_vector : stdVector.Geometric := by
  intro s c n _ _
  have : 2 * s ≤ max (2 * s) n := Nat.le_max_left _ _
  simp only [stdVector]
  omega

/-- `itlib::pod_vector` (modelled in `PodVector`): `resize` and `insert` go through `get_new_capacity`, and so does `reserve`
(pod_vector.hpp:441-447, 607-620, 655-675, 687-697) -/
def podVector : Growth := ⟨fun _ c n => PodVector.getNewCapacity c n, PodVector.getNewCapacity⟩

theorem podVector_lawful : podVector.Lawful := ⟨fun _ _ _ _ h => (MemOut.pod_bounds h).2.1, fun _ _ h => (MemOut.pod_bounds h).2.1⟩

/-- `pod_vector` grows by half at least -/
theorem C82_pod_vector : podVector.Geometric := by
  intro s c n hs h
  have := (MemOut.pod_bounds h).1
  simp only [podVector]
  omega

/-- the buffer of `C82_exact_quadratic` follows the rules of the standard and is not geometric -/
example : exact.Lawful ∧ ¬ exact.Geometric :=
  ⟨⟨fun _ _ _ _ _ => Nat.le_refl _, fun _ _ _ => Nat.le_refl _⟩, fun h => absurd (h 4 4 5 (by decide) (by decide)) (by decide)⟩

/-- a program with growth, copies, `reserve`, `append`, an assignment and a moved-from bitset -/
def costDemo : List (COp 8) :=
  [.op (.new 0 3 (0xff#8)), .op (.pushBack 0 true), .op (.resize 0 20), .op (.clone 1 0), .reserve 1 100, .op (.resize 1 41),
    .op (.append 1 0), .op (.resize 0 9), .op (.move 2 1), .op (.copyAssign 0 2), .op (.pushBack 2 true)]

/-- C82's hypotheses hold of it -/
example : Spec.SafeRunC costDemo (fun _ => none) ∧ (Spec.runC costDemo fun _ => none).map (·.1) = some 22 ∧
    programWork stdVector costDemo = some 23 ∧ programWork podVector costDemo = some 23 := by
  refine ⟨?_, by decide, by decide, by decide⟩
  simp [costDemo, Spec.SafeRunC, Spec.SafeC, Spec.Safe]

/-- pushing 80 bits onto a bitset of bytes: with `std::vector`, and with a buffer that grows exactly -/
example : programWork stdVector (.op (.new 0 0 (0#8)) :: pushes 0 (List.replicate 80 true)) = some 25 ∧
    programWork exact (.op (.new 0 0 (0#8)) :: pushes 0 (List.replicate 80 true)) = some 55 := by decide +kernel

/-- C82_reserve: the bitset of 5 bits -/
example : ∃ st : Store 8, Rel st (Function.update (fun _ => none : Spec.Sys) 0 (some (List.replicate 5 false))) ∧
    need 8 (5 + 30) - need 8 5 = 4 := by
  obtain ⟨st', -, hr⟩ := call_refines (w := 8) (by decide) (op := .new 0 5 (0#8)) rel_init trivial
    (show Spec.step (.new 0 5 (0#8)) (fun _ => none) = some (.unit, _) from rfl)
  have e : List.take 5 (Spec.bitsOf (List.replicate 5 (0#8))) = List.replicate 5 false := by decide
  rw [e] at hr
  exact ⟨st', hr, by decide⟩

end Itlib.Bitset
