import Verif.PodVector.MachineStep
import Verif.PodVector.Failing

/-!
# `pod_vector` with the arithmetic of `size_t`: properties

C61 speaks of numbers without bounds. Here: it holds for the program whose sizes wrap around at 2^64 (`W`) as long as no vector gets larger than
`Spec.V.Small` says; and what the program does beyond that.
-/
namespace Itlib.PodVector
open Itlib Spec

variable {A : Alloc}

/-- the calls that may be made: those of C61 that, if they succeed, leave all vectors small -/
def MAllowed (al : Nat) (expand zero : Bool) (op : MOp) (y : Sys) : Prop :=
  Allowed al expand zero op y ∧ ∀ r y', mstep al zero op y = some (r, y') → SmallSys y'

/-- histories of the program with `size_t`, as `Hist` -/
inductive WHist (A : Alloc) : List (MOp × Out) → Sys → Mem → Prop
  | nil : WHist A [] none_ Mem.init
  | snoc {h : List (MOp × Out)} {y y' : Sys} {m m' : Mem} {op : MOp} {o : Out} : WHist A h y m →
      MAllowed A.align A.hasExpand A.zeroFill op y → W.tcall A op m = some (o, m') →
      Effect A.align A.zeroFill op y o y' → WHist A (h ++ [(op, o)]) y' m'

theorem tcall_eq {B : Alloc} {m : Mem} {y : Sys} {own : Nat → Option Own} (hr : MRep B m y own) (hy : SmallSys y) {op : MOp}
    (ha : MAllowed A.align A.hasExpand A.zeroFill op y) : W.tcall A op m = tcall A op m := by
  obtain ⟨⟨r, y'⟩, hst⟩ := Option.isSome_iff_exists.1 ha.1.1
  simp only [W.tcall, tcall, W.mexec_eq (A := A) hr ha.1.2.1 hst hy (ha.2 _ _ hst)]
  cases mexec A op m with
  | ok r m' => rfl
  | throw e m' => cases e <;> rfl
  | ub => rfl

theorem WHist.hist (hA : Proper A.never) (ht : A.throws = true) {h : List (MOp × Out)} {y : Sys} {m : Mem} (hh : WHist A h y m) :
    Hist A h y m ∧ SmallSys y := by
  induction hh with
  | nil => exact ⟨.nil, fun i V hi => by cases hi⟩
  | @snoc h y y' m m' op o _ ha hc he ih =>
    obtain ⟨ih, hs⟩ := ih
    obtain ⟨own, hr⟩ := ih.rep hA ht
    rw [tcall_eq hr hs ha] at hc
    refine ⟨.snoc ih ha.1 hc he, ?_⟩
    cases o with
    | reply r => exact ha.2 _ _ he
    | badAlloc => rw [he.2]; exact hs

/-- **C67 (partial).** `pod_vector`s whose sizes are computed with `size_t`: in all histories of calls that keep every vector small (its buffer, with
the room for alignment, is of fewer than 2^64 bytes, and its capacity is at most 2^64/3) all that C61 says holds: no call has undefined behaviour, every
loop ends, each call does what the specification says or throws without effect, the contents and the capacities are right, and no memory is lost.

Missing: larger vectors, for which it does not hold (`C67_defect_…`); and what is missing for C61. -/
theorem C67_machine_sizes_partial (hA : Proper A.never) (ht : A.throws = true) {h : List (MOp × Out)} {y : Sys} {m : Mem} (hh : WHist A h y m) :
    (∀ op, MAllowed A.align A.hasExpand A.zeroFill op y →
      ∃ o m' y', W.tcall A op m = some (o, m') ∧ Effect A.align A.zeroFill op y o y' ∧ WHist A (h ++ [(op, o)]) y' m') ∧
    (∀ i, m.vec i = none ↔ y i = none) ∧
    (∀ i V, y i = some V → at' A i size m = .ok V.xs.length m ∧
      (∀ k b, V.xs[k]? = some (some b) → at' A i (fun P => at_ P k) m = .ok b m) ∧
      ∃ v, m.vec i = some (⟨V.sz, V.al⟩, v) ∧ v.cap = V.cap) ∧
    (∀ i T v, m.vec i = some (T, v) → v.bgn = null ∧ v.cap = 0 ∨
      ∃ b, m.heap v.bgn.base = some b ∧ v.bgn.off + v.cap * T.sz ≤ b.size) ∧
    (∀ a b, m.heap a = some b → ∃ i T v, m.vec i = some (T, v) ∧ v.bgn.base = a ∧ v.bgn ≠ null ∧
      ∀ j T' v', m.vec j = some (T', v') → v'.bgn.base = a → j = i) ∧
    ((∀ i, m.vec i = none) → ∀ a, m.heap a = none) := by
  obtain ⟨hi, hs⟩ := hh.hist hA ht
  obtain ⟨h1, h2⟩ := C61_pod_vector_bad_alloc_partial hA ht hi
  refine ⟨fun op ha => ?_, h2⟩
  obtain ⟨own, hr⟩ := hi.rep hA ht
  obtain ⟨o, m', y', hc, he⟩ := h1 op ha.1
  rw [← tcall_eq hr hs ha] at hc
  exact ⟨o, m', y', hc, he, .snoc hh ha hc he⟩

/-- a history: a vector of 16-byte elements, `reserve(2^59)`, which throws -/
example : ∃ y m, WHist (unlucky true (· == 0)) [(.ctor 0 16 8, .reply .done), (.call 0 (.reserve (2 ^ 59)), .badAlloc)] y m := by
  have h1 : WHist (unlucky true (· == 0)) [(.ctor 0 16 8, .reply .done)] (none_.put 0 (some ⟨16, 8, 0, []⟩))
      ⟨Function.update Mem.init.vec 0 (some (⟨16, 8⟩, ⟨null, null, 0⟩)), Mem.init.heap, Mem.init.tick⟩ := by
    refine .snoc .nil (op := .ctor 0 16 8) ⟨⟨rfl, ⟨by omega, by omega, 3, rfl⟩, id⟩, ?_⟩ rfl rfl
    intro r y' h i V hi
    cases h
    by_cases h0 : i = 0
    · subst h0; cases hi; exact ⟨by decide, by decide⟩
    · rw [put_ne _ h0] at hi; cases hi
  have a : MAllowed 16 false true (.call 0 (.reserve (2 ^ 59))) (none_.put 0 (some ⟨16, 8, 0, []⟩)) := by
    refine ⟨⟨rfl, fun _ _ => trivial, by rintro ⟨V, -, h⟩; exact h⟩, ?_⟩
    intro r y' h i V hi
    cases h
    by_cases h0 : i = 0
    · subst h0; cases hi; exact ⟨by decide, by decide⟩
    · rw [put_ne _ h0, put_ne _ h0] at hi; cases hi
  obtain ⟨o, m', y', e, he, hw⟩ := (C67_machine_sizes_partial (unlucky_proper _ _) rfl h1).1 _ a
  have hr := (h1.hist (unlucky_proper _ _) rfl).1.rep (unlucky_proper _ _) rfl
  obtain ⟨own, hr⟩ := hr
  rw [tcall_eq hr (h1.hist (unlucky_proper _ _) rfl).2 a] at e
  have e' := congrArg (Option.map Prod.fst) e
  simp [tcall, mexec, Mem.init, at', exec, reserve, size, null, unlucky, anAlloc, aReallocBegin, Params.aligned, realloc, noMemory,
      malloc, Ty.params, Ptr.add, setBegin, setCap, setSize, getNewCapacity] at e'
  subst e'
  exact ⟨y', m', hw⟩

/-! ### Larger sizes -/

/-- `reserve(n)` for the first time: a block of as many bytes as `size_t` can tell -/
theorem reserve_first {P : Params} {n : Nat} {H : Heap} {t : Nat} (hal : P.aligned = true) (hf : P.A.fails t (n * P.sz % lim) = false) (hn : 0 < n) :
    ∃ r, W.reserve P n ⟨⟨null, null, 0⟩, H, t⟩ =
      .ok r ⟨⟨⟨P.A.pick H t (n * P.sz % lim), 0⟩, ⟨P.A.pick H t (n * P.sz % lim), 0⟩, n⟩,
        Function.update H (P.A.pick H t (n * P.sz % lim)) (some ⟨n * P.sz % lim, fun _ => none⟩), t + 1⟩ := by
  have hn' : ¬ n ≤ 0 := by omega
  have hsz : size P ⟨⟨null, null, 0⟩, H, t⟩ = .ok 0 ⟨⟨null, null, 0⟩, H, t⟩ := by simp [size, null]
  refine ⟨decide ((null : Ptr).addr ≠ (⟨P.A.pick H t (n * P.sz % lim), 0⟩ : Ptr).addr), ?_⟩
  by_cases hx : P.A.hasExpand = true
  · simp only [W.reserve, M.bind_apply, M.get_apply, hn', if_false, W.newCapacity, if_true, M.pure_apply, hsz, hx, W.aMalloc, hal, malloc, Params.e2b,
      hf, Bool.false_eq_true, setBegin, setCap, setSize, M.modify_apply, Ptr.add, Nat.zero_mul]
  · have hw : ¬ ((0 - 0) * P.sz % lim > P.A.wasteful) := by simp
    simp only [W.reserve, M.bind_apply, M.get_apply, hn', if_false, W.newCapacity, if_true, M.pure_apply, hsz, hx, hw, W.aReallocBegin, hal, realloc, malloc,
      Params.e2b, hf, Bool.false_eq_true, setBegin, setCap, setSize, M.modify_apply, Ptr.add, Nat.zero_mul]

/-- **C67, defect.** `reserve(n)` on a new vector, `n` elements being of 2^64 bytes or more: it succeeds, `capacity()` is `n`, but the buffer is of
`n * sizeof(T)` modulo 2^64 bytes; and to assign no more than `n` elements, but more than fit into that, is undefined behaviour. -/
theorem C67_defect_reserve_short {m : Mem} {i n : Nat} {T : Ty} (hv : m.vec i = some (T, ⟨null, null, 0⟩)) (hal : T.al ≤ A.align)
    (hn : lim ≤ n * T.sz) (hf : A.fails m.tick (n * T.sz % lim) = false) :
    ∃ m' v b, W.mexec A (.call i (.reserve n)) m = .ok .done m' ∧ m'.vec i = some (T, v) ∧ v.cap = n ∧ m'.heap v.bgn.base = some b ∧
      b.size = n * T.sz % lim ∧ b.size < n * T.sz ∧
      ∀ ys : List (List Byte), (∀ x ∈ ys, x.length = T.sz) → ys.length ≤ n → b.size < ys.length * T.sz →
        W.mexec A (.call i (.assignRange ys)) m' = .ub := by
  have hn0 : 0 < n := by
    rcases Nat.eq_zero_or_pos n with h | h
    · subst h; simp [lim] at hn
    · exact h
  obtain ⟨r, e⟩ := reserve_first (P := T.params A) (n := n) (H := m.heap) (t := m.tick) (by simp [Params.aligned, Ty.params, hal]) hf hn0
  have hlt : n * T.sz % lim < lim := Nat.mod_lt _ (by decide)
  refine ⟨⟨Function.update m.vec i (some (T, ⟨⟨A.pick m.heap m.tick (n * T.sz % lim), 0⟩, ⟨A.pick m.heap m.tick (n * T.sz % lim), 0⟩, n⟩)),
    Function.update m.heap (A.pick m.heap m.tick (n * T.sz % lim)) (some ⟨n * T.sz % lim, fun _ => none⟩), m.tick + 1⟩,
    ⟨⟨A.pick m.heap m.tick (n * T.sz % lim), 0⟩, ⟨A.pick m.heap m.tick (n * T.sz % lim), 0⟩, n⟩,
    ⟨n * T.sz % lim, fun _ => none⟩, ?_, Function.update_self _ _ _, rfl, Function.update_self _ _ _, rfl,
    Nat.lt_of_lt_of_le hlt hn, ?_⟩
  · simp only [W.mexec, at', hv, W.exec, M.bind_apply, e, M.pure_apply]; rfl
  · intro ys hy hl hb
    have hfl : (ys.flatten.map some).length = ys.length * T.sz := by
      rw [List.length_map]
      clear hl hb
      induction ys with
      | nil => simp
      | cons x ys ih =>
        rw [List.flatten_cons, List.length_append, hy x (by simp), ih fun z hz => hy z (by simp [hz]), List.length_cons, Nat.succ_mul]
        omega
    have hne : ys.flatten.map some ≠ [] := by
      intro h0; rw [h0] at hfl; simp at hfl; simp only at hb; omega
    have hb' : ¬ (0 + (ys.flatten.map some).length ≤ n * T.sz % lim) := by rw [hfl]; simp only at hb; omega
    simp only [W.mexec, at', Function.update_self, W.exec, M.bind_apply, W.assignCopy, W.safeGrow, M.get_apply, Ty.params, hl, if_true, M.pure_apply,
      copyIn, hne, if_false, writeAt, M.mem, hb']

/-- two elements of 16 bytes after `reserve(2^60 + 1)` -/
example (A : Alloc) (hal : 8 ≤ A.align) (hf : ∀ t n, A.fails t n = false) (a b : List Byte) (ha : a.length = 16) (hb : b.length = 16) (m : Mem)
    (hv : m.vec 0 = some (⟨16, 8⟩, ⟨null, null, 0⟩)) :
    ∃ m', W.mexec A (.call 0 (.reserve (2 ^ 60 + 1))) m = .ok .done m' ∧ W.mexec A (.call 0 (.assignRange [a, b])) m' = .ub := by
  obtain ⟨m', v, bl, h1, -, -, -, h2, -, h3⟩ := C67_defect_reserve_short (A := A) (n := 2 ^ 60 + 1) hv hal (by decide) (hf _ _)
  refine ⟨m', h1, h3 [a, b] ?_ (by simp) ?_⟩
  · intro x hx
    simp only [List.mem_cons, List.not_mem_nil, or_false] at hx
    rcases hx with rfl | rfl <;> assumption
  · rw [h2]; show (2 ^ 60 + 1) * 16 % 2 ^ 64 < 2 * 16; decide

theorem fill_ub {P : Params} {a : List Byte} (ha : a.length = P.sz) : ∀ (k : Nat) (p : Ptr) (s : St), 0 < k →
    (∀ b, s.heap p.base = some b → b.size < p.off + k * P.sz) → fill P (.val a) p k s = .ub
  | 0, _, _, h, _ => by omega
  | k+1, p, s, _, h => by
    simp only [fill, M.bind_apply, loadRef, M.pure_apply, writeAt, M.mem]
    cases hb : s.heap p.base with
    | none => rfl
    | some b =>
      have h1 := h b hb
      by_cases hf : p.off + (a.map some).length ≤ b.size
      · simp only [hf, if_true]
        rw [List.length_map, ha] at hf
        rw [Nat.succ_mul] at h1
        have hk : 0 < k := by
          rcases Nat.eq_zero_or_pos k with h0 | h0
          · subst h0; omega
          · exact h0
        refine fill_ub ha k _ _ hk ?_
        intro b' hb'
        simp only [Ptr.add, Function.update_self, Option.some.injEq] at hb'
        subst hb'
        simp only [Ptr.add, wr_size]
        omega
      · simp only [hf, if_false]

/-- **C67, defect.** The constructor of `n` copies of a value is undefined if they are of 2^64 bytes or more: it does not ask for as much memory
(a request that would fail), but writes past the end of a small buffer. -/
theorem C67_defect_ctor {m : Mem} {i n sz al : Nat} {a : List Byte} (hv : m.vec i = none) (ha : a.length = sz) (hal : al ≤ A.align)
    (hn : lim ≤ n * sz) (hf : A.fails m.tick (n * sz % lim) = false) : W.mexec A (.ctorVal i sz al n a) m = .ub := by
  have hn0 : 0 < n := by
    rcases Nat.eq_zero_or_pos n with h | h
    · subst h; simp [lim] at hn
    · exact h
  have hn1 : ¬ n ≤ 0 := by omega
  have hal' : (Ty.params ⟨sz, al⟩ A).aligned = true := by simp [Params.aligned, Ty.params, hal]
  have hlt : n * sz % lim < lim := Nat.mod_lt _ (by decide)
  have e : ∀ P : Params, P.sz = sz → P.aligned = true → P.A = A → W.assignN P n (.val a) ⟨⟨null, null, 0⟩, m.heap, m.tick⟩ = .ub := by
    rintro P rfl hP rfl
    have hfr : aFreeBegin P ⟨⟨null, null, 0⟩, m.heap, m.tick⟩ = .ok () ⟨⟨null, null, 0⟩, m.heap, m.tick⟩ := aFree_null ..
    simp only [W.assignN, M.bind_apply, bindRef, M.get_apply, M.pure_apply, W.safeGrow, hn1, if_false, hfr, W.newCapacity, if_true, setCap,
      M.modify_apply, W.aMalloc, hP, malloc, Params.e2b, hf, Bool.false_eq_true]
    rw [fill_ub ha n _ _ hn0]
    intro b hb
    simp only [Function.update_self, Option.some.injEq] at hb
    subst hb
    simp only
    omega
  simp only [W.mexec, W.ctorVal, M.bind_apply, construct, M.mem, hv, ctorBody, at', Function.update_self, e (Ty.params ⟨sz, al⟩ A) rfl hal' rfl]

/-- 2^60 elements of 16 bytes -/
example (a : List Byte) (ha : a.length = 16) : W.mexec (anAlloc false false) (.ctorVal 0 16 8 (2 ^ 60) a) Mem.init = .ub :=
  C67_defect_ctor rfl ha (show 8 ≤ 16 by decide) (by decide) rfl

theorem grow_lt (c : Nat) : W.grow c < 2 ^ 63 := by
  have : (c * 3 % lim + 1) % lim < lim := Nat.mod_lt _ (by decide)
  simp only [W.grow, lim] at *
  omega

theorem rounds_lt {n : Nat} (hn : 2 ^ 63 ≤ n) : ∀ k c, c < n → W.rounds k c < n
  | 0, _, h => h
  | k+1, c, _ => rounds_lt hn k _ (Nat.lt_of_lt_of_le (grow_lt c) hn)

/-- **C67, defect.** `reserve(n)` on a vector that has a capacity, with `n` of 2^63 or more, never returns: the loop that computes the new capacity
cannot reach `n`. (Nor do other functions that need such a capacity.) -/
theorem C67_defect_reserve_endless {m : Mem} {i n : Nat} {T : Ty} {v : Vec} (hv : m.vec i = some (T, v)) (h0 : 0 < v.cap) (hc : v.cap < n)
    (hn : 2 ^ 63 ≤ n) : (∀ k, W.rounds k v.cap < n) ∧ W.mexec A (.call i (.reserve n)) m = .ub := by
  have h := fun k => rounds_lt hn k v.cap hc
  refine ⟨h, ?_⟩
  have hno : ¬ ∃ k, n ≤ W.rounds k v.cap := fun ⟨k, hk⟩ => by have := h k; omega
  have h0' : v.cap ≠ 0 := by omega
  have hc' : ¬ n ≤ v.cap := by omega
  simp only [W.mexec, at', hv, W.exec, M.bind_apply, W.reserve, M.get_apply, hc', if_false, W.newCapacity, h0', hno, dite_false, M.undef]

/-- a vector of one byte, then `reserve(2^63)` -/
example (A : Alloc) (m : Mem) (p q : Ptr) (hv : m.vec 0 = some (⟨1, 1⟩, ⟨p, q, 1⟩)) : W.mexec A (.call 0 (.reserve (2 ^ 63))) m = .ub :=
  (C67_defect_reserve_endless hv Nat.one_pos (show 1 < 2 ^ 63 by decide) (by decide)).2

/-- **C67, defect.** `insert(pos, n, value)` is undefined if there would be 2^64 elements or more: the new size wraps around, so that no memory is
asked for, and elements are moved or written past the end of the buffer (blocks being of fewer than 2^64 bytes). -/
theorem C67_defect_insert (hA : Proper A.never) (ht : A.throws = true) {h : List (MOp × Out)} {y : Sys} {m : Mem} (hh : WHist A h y m)
    (hb : ∀ a b, m.heap a = some b → b.size < lim) {i pos n : Nat} {V : Spec.V} (hi : y i = some V) {a : List Byte} (ha : a.length = V.sz)
    (hp : pos ≤ V.xs.length) (hn : n < lim) (hs : lim ≤ V.xs.length + n) :
    W.mexec A (.call i (.insertN pos n (.val a))) m = .ub := by
  obtain ⟨hist, hsm⟩ := hh.hist hA ht
  obtain ⟨own, hr⟩ := hist.rep hA ht
  obtain ⟨hv, hS⟩ := hr.live i V hi
  obtain ⟨s1, s2⟩ := hsm i V hi
  have hlen := hS.len
  have hsz : 0 < V.sz := hS.wf.sz
  have hmod : (V.xs.length + n) % lim ≤ V.xs.length := by
    simp only [lim] at *
    omega
  have hle : (V.xs.length + n) % lim ≤ V.cap := by omega
  have hn0 : 0 < n := by simp only [lim] at hs; omega
  have hlt : lim ≤ (V.xs.length + n) * V.sz := Nat.le_trans hs (Nat.le_mul_of_pos_right _ hsz)
  have esz : ∀ k c, size (Ty.params ⟨V.sz, V.al⟩ A) ⟨⟨ptrOf (own i), (ptrOf (own i)).add (k * V.sz), c⟩, m.heap, m.tick⟩ =
      .ok k ⟨⟨ptrOf (own i), (ptrOf (own i)).add (k * V.sz), c⟩, m.heap, m.tick⟩ := fun k c => by
    simp [size, Ptr.add, Ty.params, Nat.mul_div_cancel k hsz]
  have hp' : ¬ pos > V.xs.length := by omega
  simp only [W.mexec, at', hv, vecOf, W.exec, M.bind_apply, W.insertN, bindRef, M.get_apply, M.pure_apply, W.growAt, esz, hp', if_false]
  by_cases he : pos = V.xs.length
  · have hng : ¬ ((V.xs.length + n) % lim > V.xs.length ∧ (Ty.params ⟨V.sz, V.al⟩ A).A.zeroFill = true) := fun h => by have := h.1; omega
    simp only [he, if_true, M.bind_apply, W.resize, W.reserve, M.get_apply, hle, M.pure_apply, esz, hng, if_false, setSize, M.modify_apply]
    rw [fill_ub (P := Ty.params ⟨V.sz, V.al⟩ A) ha n _ _ hn0]
    intro b hb'
    have := hb _ b hb'
    simp only [Ptr.add, Ty.params]
    rw [Nat.add_mul] at hlt
    omega
  · have hng : ¬ ((V.xs.length + n) % lim > V.cap) := by omega
    have hcopy : ∀ c, W.makeGap (Ty.params ⟨V.sz, V.al⟩ A) V.xs.length pos n
        ⟨⟨ptrOf (own i), (ptrOf (own i)).add (V.xs.length * V.sz), c⟩, m.heap, m.tick⟩ = .ub := by
      intro c
      have hcs : V.xs.length * V.sz ≤ V.cap * V.sz := Nat.mul_le_mul_right _ hlen
      have hk : (V.xs.length - pos) * V.sz ≤ V.xs.length * V.sz := Nat.mul_le_mul_right _ (Nat.sub_le _ _)
      have he2 : (Ty.params ⟨V.sz, V.al⟩ A).e2b (V.xs.length - pos) = (V.xs.length - pos) * V.sz := by
        refine W.e2b_eq ?_
        show (V.xs.length - pos) * V.sz < 2 ^ 64
        omega
      simp only [W.makeGap, M.bind_apply, M.get_apply, he2, copyBytes, readAt, M.load, Ptr.add]
      cases hB : m.heap (ptrOf (own i)).base with
      | none => rfl
      | some b =>
        have hbs := hb _ b hB
        have hw : ¬ ((ptrOf (own i)).off + (pos + n) * V.sz + (V.xs.length - pos) * V.sz ≤ b.size) := by
          have : (pos + n) * V.sz + (V.xs.length - pos) * V.sz = (V.xs.length + n) * V.sz := by
            rw [← Nat.add_mul]; congr 1; omega
          omega
        by_cases hrd : (ptrOf (own i)).off + pos * V.sz + (V.xs.length - pos) * V.sz ≤ b.size
        · simp only [Ty.params, hrd, if_true, writeAt, M.mem, hB, sl_length, hw, if_false]
        · simp only [Ty.params, hrd, if_false]
    simp only [he, if_false, M.bind_apply, M.get_apply, hng, hcopy]

/-- one byte, and 2^64 - 1 more -/
example : ∃ h y m, WHist (unlucky true fun _ => false) h y m ∧
    W.mexec (unlucky true fun _ => false) (.call 0 (.insertN 0 (2 ^ 64 - 1) (.val [7]))) m = .ub := by
  have a : MAllowed 16 false true (.ctorVal 0 1 1 1 [5]) none_ := by
    refine ⟨⟨rfl, ⟨by omega, by omega, 0, rfl⟩, id⟩, ?_⟩
    intro r y' h i V hi
    cases h
    by_cases h0 : i = 0
    · subst h0; cases hi; exact ⟨by decide, by decide⟩
    · rw [put_ne _ h0] at hi; cases hi
  have e : W.tcall (unlucky true fun _ => false) (.ctorVal 0 1 1 1 [5]) Mem.init =
      some (.reply .done, ⟨Function.update Mem.init.vec 0 (some (⟨1, 1⟩, ⟨⟨16, 0⟩, ⟨16, 1⟩, 1⟩)),
        Function.update Mem.init.heap 16 (some (Block.wr ⟨1, fun _ => none⟩ 0 [some 5])), 1⟩) := by
    rw [tcall_eq (A := unlucky true fun _ => false) (MRep.init (A := unlucky true fun _ => false)) (fun i V hi => by cases hi) a]
    simp [tcall, mexec, ctorVal, construct, M.mem, ctorBody, at', Mem.init, assignN, bindRef, safeGrow, aFreeBegin, realAddr, Params.aligned, free, null,
      Ty.params, unlucky, anAlloc, getNewCapacity, aMalloc, malloc, setCap, fill, loadRef, writeAt, setSize, Ptr.add]
  have hw := WHist.snoc WHist.nil a e (show Effect 16 true (.ctorVal 0 1 1 1 [5]) none_ (.reply .done) _ from rfl)
  refine ⟨_, _, _, hw, C67_defect_insert (unlucky_proper _ _) rfl hw ?_ (V := ⟨1, 1, 1, [some [5]]⟩) rfl rfl (by decide) (by decide) (by decide)⟩
  intro a b hb
  by_cases ha : a = 16
  · subst ha; simp only [Function.update_self, Option.some.injEq] at hb; subst hb; decide
  · simp only [Function.update_of_ne ha] at hb; cases hb

end Itlib.PodVector
