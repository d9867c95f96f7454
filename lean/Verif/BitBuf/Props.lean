import Verif.BitBuf.Lemmas

/-!
# Property C55: dynamic_bitset over a buffer that fails
-/
namespace Itlib.BitBuf
open Itlib Bitset

variable {w : Nat}

theorem onM_ok {st : Store w} {y : Bitset.Spec.Sys} (h : Rel st y) {i xs zs} (hy : y i = some xs) {m : M (Bits w) Unit}
    (hm : ∀ b, Shows b xs → ∃ b', m b = .ok () b' ∧ Shows b' zs) :
    ∃ st', onM st i m = some (.ret .unit, st') ∧ Rel st' (Function.update y i (some zs)) := by
  obtain ⟨b, e, hb⟩ := h.get hy
  obtain ⟨b', e', hb'⟩ := hm b hb
  exact ⟨_, by simp [onM, e, e'], h.update i hb'⟩

theorem onM_throw {st : Store w} {y : Bitset.Spec.Sys} (h : Rel st y) {i xs} (hy : y i = some xs) {m : M (Bits w) Unit} {e : Exc}
    (hm : ∀ b, Shows b xs → m b = .throw e b) :
    ∃ st', onM st i m = some (.exc e, st') ∧ Rel st' y := by
  obtain ⟨b, eb, hb⟩ := h.get hy
  refine ⟨_, by simp only [onM, eb, Option.bind_eq_bind, Option.bind_some, hm b hb]; rfl, ?_⟩
  have : Function.update st i (some b) = st := by rw [← eb]; exact Function.update_eq_self i st
  rw [this]; exact h

/-- One call does what the specification says. -/
theorem call_refines (hw : 0 < w) {env : Env w} {c : Call w} {st : Store w} {y y' : Bitset.Spec.Sys} {r : Out} (h : Rel st y)
    (hsafe : Spec.Safe env c y) (hs : Spec.step env c y = some (r, y')) :
    ∃ st', call env c st = some (r, st') ∧ Rel st' y' := by
  cases c with
  | reserve i n =>
    cases hy : y i with
    | none => simp [Spec.step, hy] at hs
    | some xs =>
      simp only [Spec.step, hy, Spec.fails, Option.bind_eq_bind, Option.bind_some] at hs
      have hn : Spec.Fits w n := hsafe
      by_cases hf : Spec.short env (Spec.words w xs.length) (Spec.words w n) = true
      · rw [if_pos hf] at hs
        simp only [Option.some.injEq, Prod.mk.injEq] at hs
        obtain ⟨rfl, rfl⟩ := hs
        apply onM_throw h hy
        intro b hb
        rw [short_true, words_eq hw, words_eq hw] at hf
        simp [reserve, wordSizeW_eq hw hn, hb.len, hf.1, hf.2]
      · rw [if_neg hf] at hs
        simp only [Option.some.injEq, Prod.mk.injEq] at hs
        obtain ⟨rfl, rfl⟩ := hs
        obtain ⟨b, eb, hb⟩ := h.get hy
        rw [short_true, words_eq hw, words_eq hw] at hf
        refine ⟨Function.update st i (some b), ?_, ?_⟩
        · simp only [call, onM, eb, Option.bind_eq_bind, Option.bind_some, reserve, M.bind_apply, M.get_apply, hb.len,
            wordSizeW_eq hw hn]
          rw [if_neg hf]; rfl
        · have : Function.update st i (some b) = st := by rw [← eb]; exact Function.update_eq_self i st
          rw [this]; exact h
  | op o =>
    simp only [Spec.step] at hs
    cases hb : Bitset.Spec.step o y with
    | none => simp [hb] at hs
    | some p =>
    obtain ⟨r0, y0⟩ := p
    simp only [hb, Option.bind_eq_bind, Option.bind_some] at hs
    cases o with
    | new i n value =>
      have hn : Spec.Fits w n := hsafe
      simp only [Bitset.Spec.step, Option.some.injEq, Prod.mk.injEq] at hb
      obtain ⟨rfl, rfl⟩ := hb
      rw [show Spec.fails env (.op (.new i n value)) y = Spec.short env 0 (Spec.words w n) from rfl] at hs
      by_cases hf : Spec.short env 0 (Spec.words w n) = true
      · rw [if_pos hf] at hs
        simp only [Option.some.injEq, Prod.mk.injEq] at hs
        obtain ⟨rfl, rfl⟩ := hs
        rw [short_true, words_eq hw] at hf
        exact ⟨st, by simp [call, new_throws hw env hn value hf.1 hf.2], h⟩
      · rw [if_neg hf] at hs
        simp only [Option.some.injEq, Prod.mk.injEq] at hs
        obtain ⟨rfl, rfl⟩ := hs
        rw [Bool.not_eq_true, short_false, words_eq hw] at hf
        exact ⟨_, by simp only [call, new_eq hw env hn value hf], h.update i (Bitset.new_eq hw n value)⟩
    | clone i src | copyAssign i src =>
      all_goals
        cases hy : y src with
        | none => simp [Bitset.Spec.step, hy] at hb
        | some xs =>
          simp only [Bitset.Spec.step, hy, Option.bind_eq_bind, Option.bind_some, Option.some.injEq, Prod.mk.injEq] at hb
          obtain ⟨rfl, rfl⟩ := hb
          obtain ⟨b, eb, hbs⟩ := h.get hy
          simp only [Spec.fails, hy] at hs
          by_cases hf : Spec.short env 0 (Spec.words w xs.length) = true
          · rw [if_pos hf] at hs
            simp only [Option.some.injEq, Prod.mk.injEq] at hs
            obtain ⟨rfl, rfl⟩ := hs
            exact ⟨st, by simp [call, eb, clone_eq hw env hbs, hf], h⟩
          · rw [if_neg hf] at hs
            simp only [Option.some.injEq, Prod.mk.injEq] at hs
            obtain ⟨rfl, rfl⟩ := hs
            exact ⟨Function.update st i (some b), by simp [call, eb, clone_eq hw env hbs, hf], h.update i hbs⟩
    | resize i n =>
      obtain ⟨hn, hz⟩ := hsafe
      cases hy : y i with
      | none => simp [Bitset.Spec.step, hy] at hb
      | some xs =>
        simp only [Bitset.Spec.step, hy, Option.bind_eq_bind, Option.bind_some, Option.some.injEq, Prod.mk.injEq] at hb
        obtain ⟨rfl, rfl⟩ := hb
        have hz := hz xs hy
        rw [words_eq hw, words_eq hw] at hz
        have hf : Spec.short env (Spec.words w xs.length) (Spec.words w n) = false := by
          rw [short_false, words_eq hw, words_eq hw]; exact fun c => (hz c).1
        simp only [Spec.fails, hy, hf, Bool.false_eq_true, if_false, Option.some.injEq, Prod.mk.injEq] at hs
        obtain ⟨rfl, rfl⟩ := hs
        exact onM_ok h hy fun b hb => resize_zero hw hb env hn hz
    | pushBack i v =>
      obtain ⟨hf, hn⟩ := hsafe
      cases hy : y i with
      | none => simp [Bitset.Spec.step, hy] at hb
      | some xs =>
        simp only [Bitset.Spec.step, hy, Option.bind_eq_bind, Option.bind_some, Option.some.injEq, Prod.mk.injEq] at hb
        obtain ⟨rfl, rfl⟩ := hb
        simp only [hf, Bool.false_eq_true, if_false, Option.some.injEq, Prod.mk.injEq] at hs
        obtain ⟨rfl, rfl⟩ := hs
        simp only [Spec.fails, hy, short_false, words_eq hw] at hf
        exact onM_ok h hy fun b hb => pushBack_eq hw hb env v (hn xs hy) hf
    | assign i ws =>
      have hn : Spec.Fits w (ws.length * w) := hsafe
      cases hy : y i with
      | none => simp [Bitset.Spec.step, hy] at hb
      | some xs =>
        simp only [Bitset.Spec.step, hy, Option.bind_eq_bind, Option.bind_some, Option.some.injEq, Prod.mk.injEq] at hb
        obtain ⟨rfl, rfl⟩ := hb
        rw [show Spec.fails env (.op (.assign i ws)) y = Spec.short env 0 ws.length from rfl] at hs
        by_cases hf : Spec.short env 0 ws.length = true
        · rw [if_pos hf] at hs
          simp only [Option.some.injEq, Prod.mk.injEq] at hs
          obtain ⟨rfl, rfl⟩ := hs
          rw [short_true] at hf
          apply onM_throw h hy
          intro b hb
          simp [assign, List.length_pos_iff.1 hf.1, hf.2]
        · rw [if_neg hf] at hs
          simp only [Option.some.injEq, Prod.mk.injEq] at hs
          obtain ⟨rfl, rfl⟩ := hs
          apply onM_ok h hy
          intro b hb
          refine ⟨Bitset.assign ws, ?_, assign_eq hw ws⟩
          have hc : ¬ (ws ≠ [] ∧ env.room ws.length = false) := by
            rw [short_true] at hf
            rintro ⟨c1, c2⟩
            exact hf ⟨List.length_pos_iff.2 c1, c2⟩
          have hl : ws.length * w < 2 ^ 64 := by unfold Spec.Fits at hn; omega
          simp only [assign]
          rw [if_neg hc]
          simp [Bitset.assign, Nat.mod_eq_of_lt hl]
    | append i j =>
      obtain ⟨hsf, hn⟩ := hsafe
      cases hy : y i with
      | none => simp [Bitset.Spec.step, hy] at hb
      | some xs =>
        cases hy2 : y j with
        | none => simp [Bitset.Spec.step, hy, hy2] at hb
        | some ys =>
          simp only [Bitset.Spec.step, hy, hy2, Option.bind_eq_bind, Option.bind_some, Option.some.injEq, Prod.mk.injEq] at hb
          obtain ⟨rfl, rfl⟩ := hb
          obtain ⟨hn, hf2⟩ := hn xs ys hy hy2
          obtain ⟨o, eo, ho⟩ := h.get hy2
          by_cases hf : Spec.fails env (.op (.append i j)) y = true
          · rw [if_pos hf] at hs
            simp only [Option.some.injEq, Prod.mk.injEq] at hs
            obtain ⟨rfl, rfl⟩ := hs
            have hp : xs.length % w = 0 := by
              by_contra hc
              rw [hf2 hc] at hf; cases hf
            simp only [Spec.fails, hy, hy2, short_true, words_eq hw] at hf
            have hij : i ≠ j := by
              rintro rfl
              rcases hsf rfl xs hy with e | e
              · subst e
                rw [hy] at hy2; cases hy2
                simp at hf
              · exact e hp
            obtain ⟨st', e1, e2⟩ := onM_throw (m := append env (some o)) (e := env.exc) h hy fun b hb =>
              append_throws hw env hb ho hp hf.1 hf.2
            exact ⟨st', by simp only [call, eo, Option.bind_eq_bind, Option.bind_some, if_neg hij, e1], e2⟩
          · rw [if_neg hf] at hs
            simp only [Option.some.injEq, Prod.mk.injEq] at hs
            obtain ⟨rfl, rfl⟩ := hs
            rw [Bool.not_eq_true] at hf
            simp only [Spec.fails, hy, hy2, short_false, words_eq hw] at hf
            obtain ⟨st', e1, e2⟩ := onM_ok (zs := xs ++ ys) (m := append env (if i = j then none else some o)) h hy fun b hb =>
              append_eq hw (ys := ys) env hb
                (fun o' ho' => by
                  by_cases hij : i = j
                  · simp [hij] at ho'
                  · simp only [if_neg hij, Option.some.injEq] at ho'; subst ho'; exact ho)
                (fun hn => by
                  by_cases hij : i = j
                  · subst hij
                    rw [hy] at hy2; cases hy2
                    exact ⟨rfl, hsf rfl xs hy⟩
                  · simp [if_neg hij] at hn) hn hf
            exact ⟨st', by simp only [call, eo, Option.bind_eq_bind, Option.bind_some, e1], e2⟩
    | move i src | test i k | set i k | reset i k | setTo i k v | flip i k | copy i a b j c | size i | empty i | all i | any i | none i =>
      all_goals
        simp only [Spec.fails, Bool.false_eq_true, if_false, Option.some.injEq, Prod.mk.injEq] at hs
        obtain ⟨rfl, rfl⟩ := hs
        simp only [Spec.Safe] at hsafe
        obtain ⟨st', e, h'⟩ := Bitset.call_refines hw h hsafe hb
        exact ⟨st', by simp only [call, e, Option.map_some], h'⟩

theorem run_refines (hw : 0 < w) : ∀ (cs : List (Env w × Call w)) {st : Store w} {y y' : Bitset.Spec.Sys} {rs : List Out},
    Rel st y → Spec.SafeRun cs y → Spec.run cs y = some (rs, y') → ∃ st', run cs st = some (rs, st') ∧ Rel st' y'
  | [], st, y, y', rs, h, _, hs => by
    simp only [Spec.run, Option.some.injEq, Prod.mk.injEq] at hs
    obtain ⟨rfl, rfl⟩ := hs
    exact ⟨st, rfl, h⟩
  | (env, c) :: cs, st, y, y', rs, h, hsafe, hs => by
    simp only [Spec.run, Option.bind_eq_bind] at hs
    cases h1 : Spec.step env c y with
    | none => simp [h1] at hs
    | some p =>
      obtain ⟨r, y1⟩ := p
      simp only [h1, Option.bind_some] at hs
      cases h2 : Spec.run cs y1 with
      | none => simp [h2] at hs
      | some p =>
        obtain ⟨rs', y2⟩ := p
        simp only [h2, Option.bind_some, Option.some.injEq, Prod.mk.injEq] at hs
        obtain ⟨rfl, rfl⟩ := hs
        obtain ⟨st1, e1, r1⟩ := call_refines hw h hsafe.1 h1
        obtain ⟨st2, e2, r2⟩ := run_refines hw cs r1 (hsafe.2 _ _ h1) h2
        exact ⟨st2, by simp [run, e1, e2], r2⟩

/-- C55 (partial). Histories of calls on bitsets of any word type, with sizes modulo 2^64, over a buffer that may fail at
any allocation, and may put anything into the words it adds (as `pod_vector` does): the replies are those of lists of
booleans; a call that throws has no effect on any bitset; and afterwards every bit of every bitset reads back as in its list.

Missing: the calls excluded by `Spec.Safe`, for which it is false: `resize`, `push_back` and (not at a word boundary) `append`
that throw - `C55_failed_resize_defect`, `C55_failed_push_back_defect`, `C55_failed_append_defect`; `resize` over a buffer that
adds words other than zero - `C55_uninitialised_defect`; sizes within a word of 2^64 - `C55_resize_wraps_defect`. -/
theorem C55_failing_buffer_partial (hw : 0 < w) (cs : List (Env w × Call w)) (rs : List Out) (y : Bitset.Spec.Sys)
    (hsafe : Spec.SafeRun cs fun _ => none) (hs : Spec.run cs (fun _ => none) = some (rs, y)) :
    ∃ st, run cs Store.init = some (rs, st) ∧
      ∀ i xs, y i = some xs → ∃ b, st i = some b ∧ b.size = xs.length ∧ ∀ k (hk : k < xs.length), test b k = some xs[k] := by
  obtain ⟨st, e, h⟩ := run_refines hw cs rel_init hsafe hs
  refine ⟨st, e, fun i xs hy => ?_⟩
  obtain ⟨b, eb, hb⟩ := h.get hy
  exact ⟨b, eb, hb.size, fun k hk => test_eq hw hb k hk⟩

/-- A bitset that a program can have: some (safe) history leads to it, and its contents are those of the list `xs`. -/
def Reachable (b : Bits w) (xs : List Bool) : Prop :=
  ∃ cs rs y st i, Spec.SafeRun cs (fun _ => none) ∧ Spec.run cs (fun _ => none) = some (rs, y) ∧
    run cs Store.init = some (rs, st) ∧ st i = some b ∧ y i = some xs

theorem Reachable.shows (hw : 0 < w) {b : Bits w} {xs} (h : Reachable b xs) : Shows b xs := by
  obtain ⟨cs, rs, y, st, i, hsafe, hs, hr, hb, hy⟩ := h
  obtain ⟨st', e, h⟩ := run_refines hw cs rel_init hsafe hs
  rw [hr] at e
  simp only [Option.some.injEq, Prod.mk.injEq, true_and] at e
  subst e
  obtain ⟨b', eb, hb'⟩ := h.get hy
  rw [hb] at eb
  cases eb
  exact hb'

/-- C55. `push_back` that does not throw adds its bit whatever the new word of the buffer is. -/
theorem C55_push_back (hw : 0 < w) {b : Bits w} {xs} (h : Reachable b xs) (env : Env w) (v : Bool) (hn : xs.length + 1 + w ≤ 2 ^ 64)
    (hr : ∀ k, env.room k = true) :
    ∃ b', pushBack env v b = .ok () b' ∧ b'.size = xs.length + 1 ∧
      (∀ k (hk : k < xs.length), test b' k = some xs[k]) ∧ test b' xs.length = some v := by
  obtain ⟨b', e, hs⟩ := pushBack_eq hw (h.shows hw) env v hn fun _ => hr _
  refine ⟨b', e, by rw [hs.size]; simp, fun k hk => ?_, ?_⟩
  · rw [test_eq hw hs k (by simp; omega), List.getElem_append_left hk]
  · rw [test_eq hw hs _ (by simp)]; simp

/-- reading in terms of the words -/
theorem test_bit (hw : 0 < w) (b : Bits w) (k : Nat) :
    test b k = if k / w < b.words.length then some (bit b.words (k / w) (k % w)) else none := by
  unfold test
  by_cases h : k / w < b.words.length
  · rw [if_pos h, List.getElem?_eq_getElem h]
    simp only [Option.bind_eq_bind, Option.bind_some]
    rw [and_mask_ne_zero hw, bit_of_getElem? (List.getElem?_eq_getElem h)]
  · rw [if_neg h, List.getElem?_eq_none (by omega)]; rfl

/-- C55 (defect). `resize` to a number of bits for which the buffer has no room sets the size *before* the buffer throws. The
caller that catches the exception has a bitset of the new size with the words of the old: reading a bit that has no word
(there are such bits below `size()`) is undefined. -/
theorem C55_failed_resize_defect (hw : 0 < w) {b : Bits w} {xs} (h : Reachable b xs) (env : Env w) {n : Nat}
    (hn : n + w ≤ 2 ^ 64) (hlt : Spec.words w xs.length < Spec.words w n) (hr : env.room (Spec.words w n) = false) :
    ∃ b', resize env n b = .throw env.exc b' ∧ b'.size = n ∧
      (∀ k (hk : k < xs.length), test b' k = some xs[k]) ∧
      Spec.words w xs.length * w < b'.size ∧ ∀ k, Spec.words w xs.length * w ≤ k → test b' k = none := by
  have hs := h.shows hw
  rw [words_eq hw] at hlt hr
  rw [words_eq hw] at hlt
  rw [words_eq hw]
  obtain ⟨b', e, e1, e2, e3⟩ := resize_throws hw hs env hn hlt hr
  refine ⟨b', e, e1, fun k hk => ?_, ?_, fun k hk => ?_⟩
  · have hd := Nat.div_add_mod k w
    rw [Nat.mul_comm] at hd
    rw [test_bit hw, if_pos (by rw [e2]; exact div_lt_of_lt hw hk), e3 _ _ (Nat.mod_lt _ hw), dif_pos (by omega)]
    simp only [hd]
  · rw [e1, ← wordSize_le_iff hw]; exact hlt
  · rw [test_bit hw, if_neg]
    rw [e2, Nat.not_lt, Nat.le_div_iff_mul_le hw]
    exact hk

/-- C55 (defect). `push_back` has the same defect; and trying again loses data: the second `push_back` takes the full last word
for one with a single bit, and clears the others. Both attempts throw; afterwards the last word of bits, except for its first
bit, reads false. -/
theorem C55_failed_push_back_defect (hw : 1 < w) {b : Bits w} {xs} (h : Reachable b xs) (env : Env w) (v : Bool)
    (hx : xs ≠ []) (hfull : xs.length % w = 0) (hn : xs.length + 2 + w ≤ 2 ^ 64)
    (hr : ∀ k, Spec.words w xs.length < k → env.room k = false) :
    ∃ b1 b2, pushBack env v b = .throw env.exc b1 ∧ b1.size = xs.length + 1 ∧
      pushBack env v b1 = .throw env.exc b2 ∧ b2.size = xs.length + 2 ∧
      ∀ k, xs.length - w < k → k < xs.length → test b2 k = some false := by
  have hw0 : 0 < w := by omega
  have hs := h.shows hw0
  rw [words_eq hw0] at hr
  have hpos : 0 < xs.length := List.length_pos_iff.2 hx
  have hws : ∀ d, 0 < d → d < w → wordSize w (xs.length + d) = wordSize w xs.length + 1 := by
    intro d h1 h2
    rw [wordSize_add hw0 hfull]
    congr 1
    unfold wordSize
    rw [show d + w - 1 = (d - 1) + w from by omega, Nat.add_div_right _ hw0, Nat.div_eq_of_lt (by omega)]
  have hws1 := hws 1 (by omega) hw
  have hWpos : wordSize w xs.length ≠ 0 := by rw [Ne, wordSize_zero_iff hw0]; omega
  obtain ⟨b1, e, e1, e2, e3⟩ := resize_throws hw0 hs env (n := xs.length + 1) (by unfold Spec.Fits; omega) (by omega)
    (hr _ (by omega))
  have hp1 : pushBack env v b = .throw env.exc b1 := by
    simp only [pushBack, M.bind_apply, M.get_apply, hs.size]
    rw [Nat.mod_eq_of_lt (by omega), e]
  have hm1 : b1.size % w = 1 := by
    rw [e1, Nat.add_mod, hfull, Nat.zero_add, Nat.mod_mod, Nat.mod_eq_of_lt hw]
  have hne : b1.words ≠ [] := by intro c; rw [c] at e2; simp at e2; omega
  obtain ⟨b2, f, f1, f2, f3⟩ := putWord_eq (b := b1) (k := b1.words.length - 1)
    (fun x => x &&& (wordMask w (b1.size % w) - 1#w)) (by have := List.length_pos_iff.2 hne; omega)
  have hwd2 : wordSize w xs.length < wordSize w (xs.length + 2) := by
    rw [wordSize_add hw0 hfull]
    have := wordSize_zero_iff hw0 (n := 2)
    omega
  refine ⟨b1, ⟨b2.words, xs.length + 2⟩, hp1, e1, ?_, rfl, ?_⟩
  · simp only [pushBack, M.bind_apply, M.get_apply]
    rw [resize_run]
    have hc : clearTail b1 = some b2 := by
      unfold clearTail
      rw [if_pos (by omega), if_neg hne, f]
    rw [hc, e1, Nat.mod_eq_of_lt (by omega), wordSizeW_eq hw0 (by unfold Spec.Fits; omega)]
    simp only [bufResize]
    rw [if_pos]
    exact ⟨by simp only [f2, e2]; exact hwd2, hr _ hwd2⟩
  · intro k h1 h2
    have ed := Nat.div_add_mod xs.length w
    rw [hfull, Nat.add_zero] at ed
    have hW := wordSize_exact hw0 hfull
    generalize hC : xs.length / w = c at *
    have hc0 : c ≠ 0 := by omega
    have hwc : w * (c - 1) + w = xs.length := by
      rw [← ed, Nat.mul_sub, Nat.mul_one]
      have : w * 1 ≤ w * c := Nat.mul_le_mul_left w (by omega)
      omega
    have hd := (split_unique hw0 (q := c - 1) (r := k - w * (c - 1)) (i := k) (by omega)).1 (by rw [Nat.mul_comm]; omega)
    rw [test_bit hw0]
    simp only [hd.1, hd.2]
    rw [if_pos (by rw [f2, e2]; omega), f3, if_pos (by omega)]
    rw [hm1]
    simp only [BitVec.getLsbD_and]
    rw [getLsbD_lowMask (p := 1) hw (r := k - w * (c - 1)) (by omega)]
    have : ¬ (k - w * (c - 1) < 1) := by omega
    simp [this]

/-- C55 (defect). `append` of two bitsets, the first of which does not fill its words, throws with the size already changed. -/
theorem C55_failed_append_defect (hw : 0 < w) {a b : Bits w} {xs ys} (ha : Reachable a xs) (hb : Reachable b ys) (env : Env w)
    (hp : xs.length % w ≠ 0) (hn : xs.length + ys.length + w ≤ 2 ^ 64)
    (hlt : Spec.words w xs.length < Spec.words w (xs.length + ys.length))
    (hr : env.room (Spec.words w (xs.length + ys.length)) = false) :
    ∃ a', append env (some b) a = .throw env.exc a' ∧ a'.size = xs.length + ys.length ∧
      ∀ k, Spec.words w xs.length * w ≤ k → test a' k = none := by
  obtain ⟨a', e, e1, _, _, e2⟩ := C55_failed_resize_defect hw ha env hn hlt hr
  refine ⟨a', ?_, e1, e2⟩
  have hy : ys ≠ [] := by
    rintro rfl
    simp at hlt
  unfold append
  simp only [M.bind_apply, M.get_apply, Option.getD_some, empty_eq hw (hb.shows hw), (ha.shows hw).size, (hb.shows hw).size]
  have he : ys.isEmpty = false := by simp [hy]
  simp only [he, Bool.false_eq_true, if_false, hp, M.bind_apply]
  rw [Nat.mod_eq_of_lt (by omega), e]

/-- C55 (defect). If the buffer does not make its new words zero (`pod_vector`), `resize` shows what was in the memory: the new
bits, from the first new word on, are those of `env.fresh`. -/
theorem C55_uninitialised_defect (hw : 0 < w) {b : Bits w} {xs} (h : Reachable b xs) (env : Env w) {n : Nat}
    (hn : n + w ≤ 2 ^ 64) (hr : ∀ k, env.room k = true) :
    ∃ b', resize env n b = .ok () b' ∧ b'.size = n ∧
      ∀ k, Spec.words w xs.length * w ≤ k → k < n → test b' k = some ((env.fresh (k / w)).getLsbD (k % w)) := by
  rw [words_eq hw]
  obtain ⟨b', e, hs⟩ := resize_shows hw (h.shows hw) env hn fun _ => hr _
  refine ⟨b', e, by rw [hs.size]; simp, fun k h1 h2 => ?_⟩
  rw [test_eq hw hs k (by simpa using h2)]
  have h3 := wordSize_ge hw xs.length
  have h4 : ¬ k / w < wordSize w xs.length := by rw [Nat.not_lt, Nat.le_div_iff_mul_le hw]; exact h1
  simp only [List.getElem_map, List.getElem_range]
  rw [dif_neg (by omega), if_neg h4]

/-- C55 (defect). For sizes within a word of 2^64 the number of words wraps around to zero: `resize` does not throw, but empties
the buffer (and says that it has `n` bits); likewise the constructor. -/
theorem C55_resize_wraps_defect (hw : 0 < w) (hw2 : w ≤ 64) {b : Bits w} {xs} (h : Reachable b xs) (env : Env w) {n : Nat}
    (hn : n < 2 ^ 64) (hbig : 2 ^ 64 < n + w) (value : BitVec w) :
    (∃ b', resize env n b = .ok () b' ∧ b'.size = n ∧ ∀ k, test b' k = none) ∧
    ∃ b', new env n value = some b' ∧ b'.size = n ∧ ∀ k, test b' k = none := by
  have hz : wordSizeW w n = 0 := by
    unfold wordSizeW
    rw [show n + w - 1 = (n + w - 1 - 2 ^ 64) + 2 ^ 64 from by omega, Nat.add_mod_right, Nat.mod_eq_of_lt (by omega),
      Nat.div_eq_of_lt (by omega)]
  have h0 : ∀ k, test (⟨[], n⟩ : Bits w) k = none := fun k => by simp [test]
  refine ⟨⟨⟨[], n⟩, ?_, rfl, h0⟩, ⟨⟨[], n⟩, ?_, rfl, h0⟩⟩
  · obtain ⟨b1, e, e1, e2, e3⟩ := clearTail_eq hw (h.shows hw)
    rw [resize_run, e, hz]
    simp [bufResize]
  · simp [new, hz]

/-! ## The hypotheses are met -/

/-- a `static_vector` of two words -/
def two : Env 8 := { room := fun n => decide (n ≤ 2), exc := .outOfRange, fresh := fun _ => 0#8 }
/-- a `pod_vector` -/
def pod : Env 8 := { room := fun _ => true, exc := .badAlloc, fresh := fun _ => 0xa5#8 }

/-- A history with failures that meets the hypotheses: the buffer of bitset 0 has two words, that of bitset 1 is uninitialised. -/
def demo : List (Env 8 × Call 8) :=
  [(two, .op (.new 0 5 0xff#8)), (two, .op (.resize 0 16)), (two, .reserve 0 17), (pod, .op (.new 1 7 0#8)),
   (pod, .op (.pushBack 1 true)), (pod, .op (.pushBack 1 true)), (two, .op (.append 0 1)), (two, .op (.new 2 20 0#8)),
   (pod, .op (.append 1 0)), (two, .op (.copyAssign 0 1)), (two, .op (.test 0 4)), (two, .op (.test 0 5))]

example : (Spec.run demo (fun _ => none)).map (fun p => (p.1, p.2 0, p.2 1)) =
      some ([.ret .unit, .ret .unit, .exc .outOfRange, .ret .unit, .ret .unit, .ret .unit, .exc .outOfRange, .exc .outOfRange,
          .ret .unit, .exc .outOfRange, .ret (.bool true), .ret (.bool false)],
        some ([true, true, true, true, true] ++ List.replicate 11 false),
        some (List.replicate 7 false ++ [true, true] ++ [true, true, true, true, true] ++ List.replicate 11 false)) ∧
    (run demo Store.init).map (fun p => p.1) = (Spec.run demo (fun _ => none)).map (fun p => p.1) := by decide +kernel

example : Spec.SafeRun [(two, .op (.new 0 5 0xff#8)), (two, .op (.resize 0 16)), (two, .reserve 0 17), (pod, .op (.pushBack 0 true))]
    (fun _ => none) := by
  refine ⟨by simp [Spec.Safe, Spec.Fits], ?_⟩
  intro r y h
  simp [Spec.step, Bitset.Spec.step, Spec.fails, Spec.short, Spec.words, two, Bitset.Spec.bitsOf] at h
  obtain ⟨rfl, rfl⟩ := h
  refine ⟨⟨by simp [Spec.Fits], ?_⟩, ?_⟩
  · intro xs hx _
    exact ⟨by simp [two, Spec.words], fun _ _ _ => rfl⟩
  intro r y h
  simp [Spec.step, Bitset.Spec.step, Spec.fails, Spec.short, Spec.words, two, List.range, List.range.loop, List.replicate] at h
  obtain ⟨rfl, rfl⟩ := h
  refine ⟨by simp [Spec.Safe, Spec.Fits], ?_⟩
  intro r y h
  simp [Spec.step, Spec.fails, Spec.short, Spec.words, two] at h
  obtain ⟨rfl, rfl⟩ := h
  refine ⟨⟨by simp [Spec.fails, Spec.short, pod], ?_⟩, fun _ _ _ => trivial⟩
  intro xs hx
  simp at hx
  subst hx
  simp [Spec.Fits]

theorem reachable_new (env : Env 8) (henv : env.room 2 = true) : Reachable (Bitset.new 16 0xff#8) (List.replicate 16 true) := by
  refine ⟨[(env, .op (.new 0 16 0xff#8))], [.ret .unit], Function.update (fun _ => none) 0 (some (List.replicate 16 true)),
    Function.update Store.init 0 (some (Bitset.new 16 0xff#8)), 0, ⟨by simp [Spec.Safe, Spec.Fits], fun _ _ _ => trivial⟩, ?_, ?_,
    Function.update_self .., Function.update_self ..⟩
  · have : (Bitset.Spec.bitsOf (List.replicate 16 (0xff#8))).take 16 = List.replicate 16 true := by decide +kernel
    rw [← this]
    simp [Spec.run, Spec.step, Bitset.Spec.step, Spec.fails, Spec.short, Spec.words, henv]
  · simp [run, call, new, wordSizeW, henv]
    rfl

/-- the lost data: a full bitset of two words, a `static_vector` of two words; two failed `push_back`s -/
example : (match pushBack two true (Bitset.new 16 0xff#8) with
    | .throw _ b1 => match pushBack two true b1 with
      | .throw _ b2 => some (b2.size, b2.words)
      | _ => none
    | _ => none) = some (18, [0xff#8, 0x01#8]) := by decide

end Itlib.BitBuf
