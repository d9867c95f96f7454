import Verif.Bitset.Append
import Verif.Bitset.Copy

/-!
# Properties C19 - C22: dynamic_bitset
-/
namespace Itlib.Bitset

variable {w : Nat}

/-- Every bitset of the program shows the list of booleans it should. -/
def Rel (st : Store w) (y : Spec.Sys) : Prop :=
  ∀ i, match st i, y i with
    | some b, some xs => Shows b xs
    | none, none => True
    | _, _ => False

theorem Rel.get {st : Store w} {y : Spec.Sys} (h : Rel st y) {i xs} (hy : y i = some xs) :
    ∃ b, st i = some b ∧ Shows b xs := by
  have := h i
  rw [hy] at this
  cases hb : st i with
  | none => rw [hb] at this; exact this.elim
  | some b => rw [hb] at this; exact ⟨b, rfl, this⟩

theorem Rel.update {st : Store w} {y : Spec.Sys} (h : Rel st y) (i : Nat) {b xs} (hb : Shows b xs) :
    Rel (Function.update st i (some b)) (Function.update y i (some xs)) := by
  intro j
  by_cases e : j = i
  · subst e; simpa using hb
  · simpa [Function.update_of_ne e] using h j

theorem on_eq {st : Store w} {y : Spec.Sys} (h : Rel st y) {i xs zs} (hy : y i = some xs) {f : Bits w → Option (Bits w)}
    (hf : ∀ b, Shows b xs → ∃ b', f b = some b' ∧ Shows b' zs) :
    ∃ st', on st i f = some (.unit, st') ∧ Rel st' (Function.update y i (some zs)) := by
  obtain ⟨b, e, hb⟩ := h.get hy
  obtain ⟨b', e', hb'⟩ := hf b hb
  exact ⟨_, by simp [on, e, e'], h.update i hb'⟩

/-- One call does what the specification says. -/
theorem call_refines (hw : 0 < w) {op : Op w} {st : Store w} {y y' : Spec.Sys} {r : Reply} (h : Rel st y)
    (hsafe : Spec.Safe op y) (hs : Spec.step op y = some (r, y')) :
    ∃ st', call op st = some (r, st') ∧ Rel st' y' := by
  cases op with
  | new i n value =>
    simp only [Spec.step, Option.some.injEq, Prod.mk.injEq] at hs
    obtain ⟨rfl, rfl⟩ := hs
    exact ⟨_, rfl, h.update i (new_eq hw n value)⟩
  | clone i src | copyAssign i src =>
    all_goals
      cases hy : y src with
      | none => simp [Spec.step, hy] at hs
      | some xs =>
        simp only [Spec.step, hy, Option.bind_eq_bind, Option.bind_some, Option.some.injEq, Prod.mk.injEq] at hs
        obtain ⟨rfl, rfl⟩ := hs
        obtain ⟨b, e, hb⟩ := h.get hy
        exact ⟨_, by simp [call, e], h.update i hb⟩
  | move i src =>
    cases hy : y src with
    | none => simp [Spec.step, hy] at hs
    | some xs =>
      by_cases e : i = src
      · simp [Spec.step, hy, e] at hs
      · simp only [Spec.step, hy, Option.bind_eq_bind, Option.bind_some, e, if_false, Option.some.injEq, Prod.mk.injEq] at hs
        obtain ⟨rfl, rfl⟩ := hs
        obtain ⟨b, e, hb⟩ := h.get hy
        refine ⟨_, by simp only [call, e, Option.bind_eq_bind, Option.bind_some]; rfl, ?_⟩
        refine (h.update i hb).update src ⟨?_, rfl, by intro q r _ hq; simp at hq⟩
        simp [(wordSize_zero_iff hw).2 rfl]
  | test i k =>
    cases hy : y i with
    | none => simp [Spec.step, hy] at hs
    | some xs =>
      by_cases hk : k < xs.length
      · simp only [Spec.step, hy, Option.bind_eq_bind, Option.bind_some, List.getElem?_eq_getElem hk, Option.some.injEq, Prod.mk.injEq] at hs
        obtain ⟨rfl, rfl⟩ := hs
        obtain ⟨b, e, hb⟩ := h.get hy
        exact ⟨st, by simp [call, e, test_eq hw hb k hk], h⟩
      · simp [Spec.step, hy, List.getElem?_eq_none (Nat.le_of_not_lt hk)] at hs
  | set i k =>
    cases hy : y i with
    | none => simp [Spec.step, hy] at hs
    | some xs =>
      by_cases hk : k < xs.length
      · simp only [Spec.step, hy, Option.bind_eq_bind, Option.bind_some, hk, if_true, Option.some.injEq, Prod.mk.injEq] at hs
        obtain ⟨rfl, rfl⟩ := hs
        exact on_eq h hy fun b hb => set_eq hw hb k hk
      · simp [Spec.step, hy, hk] at hs
  | reset i k =>
    cases hy : y i with
    | none => simp [Spec.step, hy] at hs
    | some xs =>
      by_cases hk : k < xs.length
      · simp only [Spec.step, hy, Option.bind_eq_bind, Option.bind_some, hk, if_true, Option.some.injEq, Prod.mk.injEq] at hs
        obtain ⟨rfl, rfl⟩ := hs
        exact on_eq h hy fun b hb => reset_eq hw hb k hk
      · simp [Spec.step, hy, hk] at hs
  | setTo i k v =>
    cases hy : y i with
    | none => simp [Spec.step, hy] at hs
    | some xs =>
      by_cases hk : k < xs.length
      · simp only [Spec.step, hy, Option.bind_eq_bind, Option.bind_some, hk, if_true, Option.some.injEq, Prod.mk.injEq] at hs
        obtain ⟨rfl, rfl⟩ := hs
        exact on_eq h hy fun b hb => setTo_eq hw hb k hk v
      · simp [Spec.step, hy, hk] at hs
  | flip i k =>
    cases hy : y i with
    | none => simp [Spec.step, hy] at hs
    | some xs =>
      by_cases hk : k < xs.length
      · simp only [Spec.step, hy, Option.bind_eq_bind, Option.bind_some, List.getElem?_eq_getElem hk, Option.some.injEq, Prod.mk.injEq] at hs
        obtain ⟨rfl, rfl⟩ := hs
        exact on_eq h hy fun b hb => flip_eq hw hb k hk
      · simp [Spec.step, hy, List.getElem?_eq_none (Nat.le_of_not_lt hk)] at hs
  | resize i n =>
    cases hy : y i with
    | none => simp [Spec.step, hy] at hs
    | some xs =>
      simp only [Spec.step, hy, Option.bind_eq_bind, Option.bind_some, Option.some.injEq, Prod.mk.injEq] at hs
      obtain ⟨rfl, rfl⟩ := hs
      exact on_eq h hy fun b hb => resize_eq hw hb n
  | pushBack i v =>
    cases hy : y i with
    | none => simp [Spec.step, hy] at hs
    | some xs =>
      simp only [Spec.step, hy, Option.bind_eq_bind, Option.bind_some, Option.some.injEq, Prod.mk.injEq] at hs
      obtain ⟨rfl, rfl⟩ := hs
      exact on_eq h hy fun b hb => pushBack_eq hw hb v
  | assign i ws =>
    cases hy : y i with
    | none => simp [Spec.step, hy] at hs
    | some xs =>
      simp only [Spec.step, hy, Option.bind_eq_bind, Option.bind_some, Option.some.injEq, Prod.mk.injEq] at hs
      obtain ⟨rfl, rfl⟩ := hs
      exact on_eq h hy fun b _ => ⟨_, rfl, assign_eq hw ws⟩
  | append i j =>
    cases hy : y i with
    | none => simp [Spec.step, hy] at hs
    | some xs =>
      cases hj : y j with
      | none => simp [Spec.step, hy, hj] at hs
      | some ys =>
        simp only [Spec.step, hy, hj, Option.bind_eq_bind, Option.bind_some, Option.some.injEq, Prod.mk.injEq] at hs
        obtain ⟨rfl, rfl⟩ := hs
        obtain ⟨o, eo, ho⟩ := h.get hj
        simp only [call, eo, Option.bind_eq_bind, Option.bind_some]
        apply on_eq h hy
        intro b hb
        apply append_eq hw hb
        · intro o' ho'
          by_cases e : i = j
          · simp [e] at ho'
          · simp only [e, if_false, Option.some.injEq] at ho'; subst ho'; exact ho
        · intro hn
          by_cases e : i = j
          · subst e
            rw [hy, Option.some.injEq] at hj
            exact ⟨hj.symm, hsafe rfl xs hy⟩
          · simp [e] at hn
  | copy i frm to j source =>
    cases hy : y i with
    | none => simp [Spec.step, hy] at hs
    | some xs =>
      cases hj : y j with
      | none => simp [Spec.step, hy, hj] at hs
      | some ys =>
        by_cases hc : frm ≤ to ∧ to ≤ xs.length ∧ source + (to - frm) ≤ ys.length ∧ ¬ (i = j ∧ source < frm ∧ frm < source + (to - frm))
        · simp only [Spec.step, hy, hj, Option.bind_eq_bind, Option.bind_some] at hs
          rw [if_pos hc] at hs
          simp only [Option.some.injEq, Prod.mk.injEq] at hs
          obtain ⟨rfl, rfl⟩ := hs
          obtain ⟨c1, c2, c3, c4⟩ := hc
          obtain ⟨o, eo, ho⟩ := h.get hj
          simp only [call, eo, Option.bind_eq_bind, Option.bind_some]
          apply on_eq h hy
          intro b hb
          apply copy_eq hw hb c1 c2 c3
          · intro o' ho'
            by_cases e : i = j
            · simp [e] at ho'
            · simp only [e, if_false, Option.some.injEq] at ho'; subst ho'; exact ho
          · intro hn
            by_cases e : i = j
            · subst e
              rw [hy, Option.some.injEq] at hj
              exact ⟨hj.symm, fun d => c4 ⟨rfl, d⟩⟩
            · simp [e] at hn
          · exact hsafe
        · simp only [Spec.step, hy, hj, Option.bind_eq_bind, Option.bind_some] at hs
          rw [if_neg hc] at hs
          simp at hs
  | size i =>
    cases hy : y i with
    | none => simp [Spec.step, hy] at hs
    | some xs =>
      simp only [Spec.step, hy, Option.bind_eq_bind, Option.bind_some, Option.some.injEq, Prod.mk.injEq] at hs
      obtain ⟨rfl, rfl⟩ := hs
      obtain ⟨b, e, hb⟩ := h.get hy
      exact ⟨st, by simp [call, e, hb.size], h⟩
  | empty i =>
    cases hy : y i with
    | none => simp [Spec.step, hy] at hs
    | some xs =>
      simp only [Spec.step, hy, Option.bind_eq_bind, Option.bind_some, Option.some.injEq, Prod.mk.injEq] at hs
      obtain ⟨rfl, rfl⟩ := hs
      obtain ⟨b, e, hb⟩ := h.get hy
      exact ⟨st, by simp only [call, e, Option.bind_eq_bind, Option.bind_some, empty_eq hw hb], h⟩
  | all i =>
    cases hy : y i with
    | none => simp [Spec.step, hy] at hs
    | some xs =>
      simp only [Spec.step, hy, Option.bind_eq_bind, Option.bind_some, Option.some.injEq, Prod.mk.injEq] at hs
      obtain ⟨rfl, rfl⟩ := hs
      obtain ⟨b, e, hb⟩ := h.get hy
      have hn : (decide (32 ≤ w) || decide (xs.length < w)) = true := by
        rcases hsafe with c | c
        · simp [c]
        · simp [c xs hy]
      exact ⟨st, by simp only [call, e, Option.bind_eq_bind, Option.bind_some, all_eq hw hb, hn, Bool.and_true], h⟩
  | any i =>
    cases hy : y i with
    | none => simp [Spec.step, hy] at hs
    | some xs =>
      simp only [Spec.step, hy, Option.bind_eq_bind, Option.bind_some, Option.some.injEq, Prod.mk.injEq] at hs
      obtain ⟨rfl, rfl⟩ := hs
      obtain ⟨b, e, hb⟩ := h.get hy
      exact ⟨st, by simp only [call, e, Option.bind_eq_bind, Option.bind_some, any_eq hw hb], h⟩
  | none i =>
    cases hy : y i with
    | none => simp [Spec.step, hy] at hs
    | some xs =>
      simp only [Spec.step, hy, Option.bind_eq_bind, Option.bind_some, Option.some.injEq, Prod.mk.injEq] at hs
      obtain ⟨rfl, rfl⟩ := hs
      obtain ⟨b, e, hb⟩ := h.get hy
      exact ⟨st, by simp only [call, e, Option.bind_eq_bind, Option.bind_some, none_, any_eq hw hb, Option.map_some], h⟩

theorem run_refines (hw : 0 < w) : ∀ (ops : List (Op w)) {st : Store w} {y y' : Spec.Sys} {rs : List Reply}, Rel st y →
    Spec.SafeRun ops y → Spec.run ops y = some (rs, y') → ∃ st', run ops st = some (rs, st') ∧ Rel st' y'
  | [], st, y, y', rs, h, _, hs => by
    simp only [Spec.run, Option.some.injEq, Prod.mk.injEq] at hs
    obtain ⟨rfl, rfl⟩ := hs
    exact ⟨st, rfl, h⟩
  | op :: ops, st, y, y', rs, h, hsafe, hs => by
    cases h1 : Spec.step op y with
    | none => simp [Spec.run, h1] at hs
    | some p =>
      obtain ⟨r, y1⟩ := p
      cases h2 : Spec.run ops y1 with
      | none => simp [Spec.run, h1, h2] at hs
      | some p2 =>
        obtain ⟨rs2, y2⟩ := p2
        simp only [Spec.run, h1, h2, Option.bind_eq_bind, Option.bind_some, Option.some.injEq, Prod.mk.injEq] at hs
        obtain ⟨rfl, rfl⟩ := hs
        obtain ⟨st1, e1, r1⟩ := call_refines hw h hsafe.1 h1
        obtain ⟨st2, e2, r2⟩ := run_refines hw ops r1 (hsafe.2 _ _ h1) h2
        exact ⟨st2, by simp [run, e1, e2], r2⟩

/-- no bitsets -/
def Store.init : Store w := fun _ => none

theorem rel_init : Rel (Store.init : Store w) (fun _ => none) := fun _ => trivial

/-- C19 (partial). Any history of calls on any number of bitsets of any word type gives exactly the replies of lists of
booleans, whatever the sizes; and afterwards every bit of every bitset reads back as in its list. In particular the unused
bits of the last word (which `resize`, `append`, `assign` and the constructors leave with garbage) never come to view.

Missing: the calls excluded by `Spec.Safe`, for which it is false: see `C20_defect_all_narrow`, `C21_defect_self_append`,
`C22_defect_copy_tail`. -/
theorem C19_bitset_sequence_partial (hw : 0 < w) (ops : List (Op w)) (rs : List Reply) (y : Spec.Sys)
    (hsafe : Spec.SafeRun ops fun _ => none) (hs : Spec.run ops (fun _ => none) = some (rs, y)) :
    ∃ st, run ops Store.init = some (rs, st) ∧
      ∀ i xs, y i = some xs → ∃ b, st i = some b ∧ b.size = xs.length ∧ ∀ k (hk : k < xs.length), test b k = some xs[k] := by
  obtain ⟨st, e, h⟩ := run_refines hw ops rel_init hsafe hs
  refine ⟨st, e, fun i xs hy => ?_⟩
  obtain ⟨b, eb, hb⟩ := h.get hy
  exact ⟨b, eb, hb.size, fun k hk => test_eq hw hb k hk⟩

/-- A bitset that a program can have: some (safe) history leads to it, and its contents are those of the list `xs`. -/
def Reachable (b : Bits w) (xs : List Bool) : Prop :=
  ∃ ops rs y st i, Spec.SafeRun ops (fun _ => none) ∧ Spec.run ops (fun _ => none) = some (rs, y) ∧
    run ops Store.init = some (rs, st) ∧ st i = some b ∧ y i = some xs

theorem Reachable.shows (hw : 0 < w) {b : Bits w} {xs} (h : Reachable b xs) : Shows b xs := by
  obtain ⟨ops, rs, y, st, i, hsafe, hs, hr, hb, hy⟩ := h
  obtain ⟨st', e, h⟩ := run_refines hw ops rel_init hsafe hs
  rw [hr] at e
  simp only [Option.some.injEq, Prod.mk.injEq, true_and] at e
  subst e
  obtain ⟨b', eb, hb'⟩ := h.get hy
  rw [hb] at eb
  cases eb
  exact hb'

/-- C19. `resize` keeps the bits that remain and makes the new ones false, whatever was there before. -/
theorem C19_resize (hw : 0 < w) {b : Bits w} {xs} (h : Reachable b xs) (n : Nat) :
    ∃ b', resize b n = some b' ∧ b'.size = n ∧
      ∀ k, k < n → test b' k = some (xs[k]?.getD false) := by
  obtain ⟨b', e, h'⟩ := resize_eq hw (h.shows hw) n
  have hl : (xs.take n ++ List.replicate (n - xs.length) false).length = n := by simp; omega
  refine ⟨b', e, by rw [h'.size, hl], fun k hk => ?_⟩
  rw [test_eq hw h' k (by omega)]
  congr 1
  by_cases hx : k < xs.length
  · rw [List.getElem_append_left (by simp; omega), List.getElem_take, List.getElem?_eq_getElem hx]; rfl
  · rw [List.getElem_append_right (by simp; omega), List.getElem_replicate, List.getElem?_eq_none (by omega)]; rfl

/-- C20 (partial). `any`, `none` and, for words of at least 32 bits (or bitsets smaller than a word), `all` answer for the
bits of the set alone. (On an empty set `all` answers false; that is tested in the test suite.)

Missing: `all` for 8 and 16 bit words, for which it is false: `C20_defect_all_narrow`. -/
theorem C20_all_any_none_partial (hw : 0 < w) {b : Bits w} {xs} (h : Reachable b xs) :
    any b = some (decide (∃ k, ∃ h : k < xs.length, xs[k] = true)) ∧
    none_ b = some (decide (∀ k (h : k < xs.length), xs[k] = false)) ∧
    (32 ≤ w ∨ xs.length < w → all b = some (decide (xs ≠ [] ∧ ∀ k (h : k < xs.length), xs[k] = true))) := by
  have hs := h.shows hw
  have hany : xs.any id = decide (∃ k, ∃ h : k < xs.length, xs[k] = true) := by
    rw [Bool.eq_iff_iff, decide_eq_true_eq]; simp [List.any_eq_true, List.mem_iff_getElem]
  refine ⟨by rw [any_eq hw hs, hany], ?_, fun hn => ?_⟩
  · rw [none_, any_eq hw hs, Option.map_some]
    congr 1
    rw [Bool.eq_iff_iff, decide_eq_true_eq, Bool.not_eq_true', hany, decide_eq_false_iff_not]
    constructor
    · intro hc k hk
      by_contra hd
      exact hc ⟨k, hk, by simpa using hd⟩
    · rintro hc ⟨k, hk, hd⟩
      rw [hc k hk] at hd; cases hd
  · rw [all_eq hw hs]
    congr 1
    have hn' : (decide (32 ≤ w) || decide (xs.length < w)) = true := by simpa using hn
    rw [hn', Bool.and_true, Bool.eq_iff_iff, decide_eq_true_eq]
    simp [List.all_eq_true, List.mem_iff_getElem]

/-- C20 (defect). With 8 or 16 bit words `all` answers false for every set of at least a word of bits - even if all of
them are set: the comparison with `~word_type(0)` is made after promotion to int. -/
theorem C20_defect_all_narrow (hw : 0 < w) (hn : w < 32) {b : Bits w} {xs} (h : Reachable b xs) (hl : w ≤ xs.length) :
    all b = some false := by
  rw [all_eq hw (h.shows hw)]
  have : (decide (32 ≤ w) || decide (xs.length < w)) = false := by simp; omega
  rw [this, Bool.and_false]

/-- C21 (partial). `a.append(b)`: the bits of `a`, followed by the bits of `b`; whatever the two sizes and the alignment.
`a` and `b` may be the same object if the size of `a` is not a multiple of the word size.

Missing: self-append at a multiple of the word size, for which it is false: `C21_defect_self_append`. -/
theorem C21_append_partial (hw : 0 < w) {a b : Bits w} {xs ys : List Bool} (ha : Reachable a xs) (hb : Reachable b ys) :
    (∃ a', append a (some b) = some a' ∧ a'.size = xs.length + ys.length ∧
      ∀ k (hk : k < (xs ++ ys).length), test a' k = some (xs ++ ys)[k]) ∧
    (xs.length % w ≠ 0 → ∃ a', append a none = some a' ∧ a'.size = xs.length + xs.length ∧
      ∀ k (hk : k < (xs ++ xs).length), test a' k = some (xs ++ xs)[k]) := by
  have ha := ha.shows hw
  have hb := hb.shows hw
  refine ⟨?_, fun hm => ?_⟩
  · obtain ⟨a', e, h'⟩ := append_eq (other := some b) hw ha (fun o ho => by cases ho; exact hb) (fun hn => by cases hn)
    exact ⟨a', e, by rw [h'.size, List.length_append], fun k hk => test_eq hw h' k hk⟩
  · obtain ⟨a', e, h'⟩ := append_eq (other := none) (ys := xs) hw ha (fun o ho => by cases ho) (fun _ => ⟨rfl, .inr hm⟩)
    exact ⟨a', e, by rw [h'.size, List.length_append], fun k hk => test_eq hw h' k hk⟩

/-- C21 (defect). Appending a bitset to itself inserts the buffer into itself if its size is a (positive) multiple of the
word size, which is undefined. -/
theorem C21_defect_self_append (hw : 0 < w) {a : Bits w} {xs : List Bool} (ha : Reachable a xs) (hx : xs ≠ [])
    (hm : xs.length % w = 0) : append a none = none := by
  have ha := ha.shows hw
  have he : empty a = false := by rw [empty_eq hw ha]; simp [hx]
  simp [append, he, ha.size, hm]

/-- C22 (partial). `a.copy(a.begin() + frm, a.begin() + to, b.begin() + source)` sets exactly the bits `[frm, to)` of `a`
to the bits of `b` from `source` on, for every alignment of the two (`b` may be `a` unless the ranges overlap with the
source first), except for the bits of the last word of the destination that are not in the same source word as the first
of them: these are made false. So it is right if there are no such bits, see `C22_copy_aligned_partial`.

Missing: those bits; `C22_defect_copy_tail`. -/
theorem C22_copy_partial (hw : 0 < w) {a b : Bits w} {xs ys : List Bool} (ha : Reachable a xs) (hb : Reachable b ys)
    {frm to source : Nat} (h1 : frm ≤ to) (h2 : to ≤ xs.length) (self : Bool) (hself : self = true → ys = xs)
    (h3 : source + (to - frm) ≤ ys.length) (hov : self = true → ¬ (source < frm ∧ frm < source + (to - frm))) :
    ∃ a', copy a frm to (if self then none else some b) source = some a' ∧ a'.size = xs.length ∧
      (∀ k, (hk : k < xs.length) → ¬ (frm ≤ k ∧ k < to) → test a' k = some xs[k]) ∧
      ∀ k, (hk : frm ≤ k ∧ k < to) →
        test a' k = some (if lost w frm to source k then false else ys[source + (k - frm)]) := by
  have ha := ha.shows hw
  have hb := hb.shows hw
  obtain ⟨a', e, h'⟩ := copy_exact (src := if self then none else some b) (frm := frm) (to := to) (source := source)
    hw ha h1 h2 h3
    (by intro o ho; cases self <;> simp at ho; subst ho; exact hb)
    (by intro hn; cases self <;> simp at hn; exact ⟨hself rfl, hov rfl⟩)
  have hl := length_splice h1 h2 h3
  refine ⟨a', e, by rw [h'.size, List.length_mapIdx, hl], fun k hk hk2 => ?_, fun k hk => ?_⟩
  · rw [test_eq hw h' k (by rw [List.length_mapIdx, hl]; exact hk), List.getElem_mapIdx, getElem_splice h1 h2 h3, dif_neg hk2]
    have : lost w frm to source k = false := by
      simp only [lost, decide_eq_false_iff_not]
      rintro ⟨c1, c2, _⟩
      exact hk2 ⟨c1, c2⟩
    simp [this]
  · rw [test_eq hw h' k (by rw [List.length_mapIdx, hl]; omega), List.getElem_mapIdx, getElem_splice h1 h2 h3, dif_pos hk]

/-- C22 (partial). The copy is exact for instance if the two positions are equally aligned, or the end of the destination
is at a word boundary. -/
theorem C22_copy_aligned_partial (hw : 0 < w) {a b : Bits w} {xs ys : List Bool} (ha : Reachable a xs) (hb : Reachable b ys)
    {frm to source : Nat} (h1 : frm ≤ to) (h2 : to ≤ xs.length) (h3 : source + (to - frm) ≤ ys.length)
    (hal : to % w = 0 ∨ source % w = frm % w) :
    ∃ a', copy a frm to (some b) source = some a' ∧ a'.size = xs.length ∧
      (∀ k, (hk : k < xs.length) → ¬ (frm ≤ k ∧ k < to) → test a' k = some xs[k]) ∧
      ∀ k, (hk : frm ≤ k ∧ k < to) → test a' k = some ys[source + (k - frm)] := by
  have hmt := Nat.mod_lt to hw
  obtain ⟨a', e, h'⟩ := copy_eq (src := some b) (frm := frm) (to := to) (source := source) hw (ha.shows hw) h1 h2 h3
    (by intro o ho; cases ho; exact hb.shows hw) (by intro hn; cases hn) (by
      rcases hal with c | c
      · exact .inr (.inl c)
      · by_cases hq : frm / w = to / w ∧ frm % w ≠ 0
        · exact .inl hq
        · right; right
          have e1 := Nat.div_add_mod source w
          have e2 := Nat.div_add_mod frm w
          have e3 := Nat.div_add_mod to w
          have hq2 : frm ≤ to / w * w := by
            have hle : frm / w ≤ to / w := Nat.div_le_div_right h1
            by_cases hz : frm % w = 0
            · have := Nat.mul_le_mul_left w hle
              rw [Nat.mul_comm (to / w)]; omega
            · have : frm / w + 1 ≤ to / w := Nat.lt_of_le_of_ne hle fun c => hq ⟨c, hz⟩
              have := Nat.mul_le_mul_left w this
              have := Nat.mod_lt frm hw
              rw [Nat.mul_add] at *
              rw [Nat.mul_comm (to / w)]; omega
          have : (source + (to / w * w - frm)) % w = 0 := by
            have hle : frm / w ≤ to / w := Nat.div_le_div_right h1
            have h5 := Nat.mul_le_mul_left w hle
            have : source + (to / w * w - frm) = w * (source / w + (to / w - frm / w)) := by
              rw [Nat.mul_add, Nat.mul_sub]
              rw [Nat.mul_comm (to / w)] at hq2 ⊢
              omega
            rw [this]; exact Nat.mul_mod_right ..
          omega)
  have hl := length_splice h1 h2 h3
  refine ⟨a', e, by rw [h'.size, hl], fun k hk hk2 => ?_, fun k hk => ?_⟩
  · rw [test_eq hw h' k (by rw [hl]; exact hk), getElem_splice h1 h2 h3, dif_neg hk2]
  · rw [test_eq hw h' k (by rw [hl]; omega), getElem_splice h1 h2 h3, dif_pos hk]

/-- C22 (defect). For every word type: copying two bits of a set of ones, the last of a word and the first of the next,
to the start of another set, gives one and zero. -/
theorem C22_defect_copy_tail (hw : 3 ≤ w) {a b : Bits w} {xs ys : List Bool} (ha : Reachable a xs) (hb : Reachable b ys)
    (hx : xs.length = 2) (hy : ∀ k, (h : k < ys.length) → ys[k] = true) (hyl : ys.length = w + 1) :
    ∃ a', copy a 0 2 (some b) (w - 1) = some a' ∧ ys[w - 1 + 1]? = some true ∧ test a' 1 = some false := by
  obtain ⟨a', e, _, _, h⟩ := C22_copy_partial (by omega) ha hb (frm := 0) (to := 2) (source := w - 1) (by omega) (by omega) false
    (by simp) (by omega) (by simp)
  refine ⟨a', e, ?_, ?_⟩
  · rw [List.getElem?_eq_getElem (by omega), hy _ (by omega)]
  · rw [h 1 (by omega)]
    have : lost w 0 2 (w - 1) 1 = true := by
      simp only [lost, decide_eq_true_eq, Nat.div_eq_of_lt (show 2 < w by omega), Nat.zero_div, Nat.zero_mod, Nat.zero_mul]
      refine ⟨by omega, by omega, by simp, by omega, ?_⟩
      rw [Nat.add_zero, Nat.mod_eq_of_lt (by omega), Nat.mod_eq_of_lt (by omega)]
      omega
    simp [this]

/-! ## The hypotheses are met -/

/-- a program with two bitsets of 8 bit words -/
def demoOps : List (Op 8) :=
  [.new 0 11 0xff#8, .resize 0 3, .resize 0 10, .pushBack 0 true, .new 1 9 0#8, .set 1 2, .flip 1 8, .append 0 1,
   .append 0 0, .copy 1 1 6 0 4, .any 1, .all 1, .size 0, .assign 1 [0x0f#8, 0xa0#8], .copy 1 3 16 1 3, .test 1 13]

/-- The program meets the hypotheses of `C19_bitset_sequence_partial` (and the bits `[3, 10)` are false although the word
had ones there before). -/
example : (Spec.run demoOps (fun _ => none)).map (fun p => (p.1, p.2 0, p.2 1)) =
      some ([.unit, .unit, .unit, .unit, .unit, .unit, .unit, .unit, .unit, .unit, .bool true, .bool false, .num 40, .unit, .unit, .bool true],
        some ([true, true, true, false, false, false, false, false, false, false, true, false, false, true, false, false, false,
          false, false, true] ++ [true, true, true, false, false, false, false, false, false, false, true, false, false, true, false, false, false,
          false, false, true]),
        some [true, true, true, true, false, false, false, false, false, false, false, false, false, true, false, true]) ∧
    (run demoOps Store.init).map (fun p => p.1) = (Spec.run demoOps (fun _ => none)).map (fun p => p.1) := by decide +kernel

example : Spec.SafeRun ([.new 0 3 0xff#8, .append 0 0, .all 0] : List (Op 8)) (fun _ => none) := by
  simp [Spec.SafeRun, Spec.Safe, Spec.step, Spec.bitsOf, List.replicate]

/-- the defect of `all` is reachable -/
example : ∃ (b : Bits 8) (xs : List Bool), Reachable b xs ∧ 8 ≤ xs.length ∧ xs.all id = true ∧ all b = some false := by
  refine ⟨new 9 0xff#8, _, ⟨[.new 0 9 0xff#8], _, _, _, 0, ?_, rfl, rfl, rfl, rfl⟩, ?_⟩
  · exact ⟨trivial, fun _ _ _ => trivial⟩
  · decide +kernel

/-- the defect of `copy` is reachable -/
example : ∃ (a b : Bits 32) (xs ys : List Bool), Reachable a xs ∧ Reachable b ys ∧ xs.length = 2 ∧ ys = List.replicate 33 true ∧
    (copy a 0 2 (some b) 31).bind (test · 1) = some false := by
  refine ⟨new 2 0#32, new 33 0xffffffff#32, _, _, ⟨[.new 0 2 0#32], _, _, _, 0, ?_, rfl, rfl, rfl, rfl⟩,
    ⟨[.new 0 33 0xffffffff#32], _, _, _, 0, ?_, rfl, rfl, rfl, rfl⟩, ?_⟩
  · exact ⟨trivial, fun _ _ _ => trivial⟩
  · exact ⟨trivial, fun _ _ _ => trivial⟩
  · decide +kernel

end Itlib.Bitset
