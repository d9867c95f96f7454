import Verif.PodVector.FailStep
import Verif.PodVector.Props

/-!
# `pod_vector` when there is no memory: properties

Two kinds of allocators: those that throw (`A.throws`), which only an allocator supplied by the user does, and those that
return `nullptr`, as the default one does. `A.fails t n` says whether the request for `n` bytes made as the allocator's
`t`-th action fails; it is arbitrary. `A.never` is the same allocator with unlimited memory.
-/
namespace Itlib.PodVector
open Itlib Spec

variable {A : Alloc}

/-- Histories of calls with their outcomes. The caller sees each outcome before choosing the next call, which has to be
allowed in the state that the specification assigns to the history so far. -/
inductive Hist (A : Alloc) : List (MOp × Out) → Sys → Mem → Prop
  | nil : Hist A [] none_ Mem.init
  | snoc {h : List (MOp × Out)} {y y' : Sys} {m m' : Mem} {op : MOp} {o : Out} : Hist A h y m →
      Allowed A.align A.hasExpand A.zeroFill op y → tcall A op m = some (o, m') →
      Effect A.align A.zeroFill op y o y' → Hist A (h ++ [(op, o)]) y' m'

theorem Effect.det {al : Nat} {z : Bool} {op : MOp} {y y1 y2 : Sys} {o : Out} (h1 : Effect al z op y o y1)
    (h2 : Effect al z op y o y2) : y1 = y2 := by
  cases o with
  | reply r =>
    simp only [Effect] at h1 h2
    rw [h1] at h2
    simp only [Option.some.injEq, Prod.mk.injEq, true_and] at h2
    exact h2
  | badAlloc => exact h1.2.trans h2.2.symm

theorem Hist.rep (hA : Proper A.never) (ht : A.throws = true) {h : List (MOp × Out)} {y : Sys} {m : Mem}
    (hh : Hist A h y m) : ∃ own, MRep A.never m y own := by
  induction hh with
  | nil => exact ⟨_, MRep.init⟩
  | snoc _ ha hc he ih =>
    obtain ⟨own, ih⟩ := ih
    obtain ⟨o, m', y', own', hc', he', hr⟩ := tcall_refines hA ht ih ha
    rw [hc] at hc'
    simp only [Option.some.injEq, Prod.mk.injEq] at hc'
    obtain ⟨rfl, rfl⟩ := hc'
    obtain rfl := Effect.det he he'
    exact ⟨own', hr⟩

/-- **C61 (partial).** With an allocator that throws when there is no memory, wherever that happens in a history: no call
has undefined behaviour; a call does what the specification says, or it throws, and then it is one that needs a new buffer
and has no effect whatsoever (the strong guarantee); afterwards all vectors have the contents and capacities that the
specification says; every block belongs to exactly one vector, and if no vector is left, no block is.

Missing: calls that assign more than the capacity to an existing vector (`assign`, copy assignment, `recast_copy_from`) do
not have the guarantee (`C61_assign_double_free`, `C61_assign_lost`) and are excluded from the histories, unless `reserve` is
called before; and what is missing for C10. -/
theorem C61_pod_vector_bad_alloc_partial (hA : Proper A.never) (ht : A.throws = true) {h : List (MOp × Out)} {y : Sys}
    {m : Mem} (hh : Hist A h y m) :
    (∀ op, Allowed A.align A.hasExpand A.zeroFill op y →
      ∃ o m' y', tcall A op m = some (o, m') ∧ Effect A.align A.zeroFill op y o y') ∧
    (∀ i, m.vec i = none ↔ y i = none) ∧
    (∀ i V, y i = some V → at' A i size m = .ok V.xs.length m ∧
      (∀ k b, V.xs[k]? = some (some b) → at' A i (fun P => at_ P k) m = .ok b m) ∧
      ∃ v, m.vec i = some (⟨V.sz, V.al⟩, v) ∧ v.cap = V.cap) ∧
    (∀ i T v, m.vec i = some (T, v) → v.bgn = null ∧ v.cap = 0 ∨
      ∃ b, m.heap v.bgn.base = some b ∧ v.bgn.off + v.cap * T.sz ≤ b.size) ∧
    (∀ a b, m.heap a = some b → ∃ i T v, m.vec i = some (T, v) ∧ v.bgn.base = a ∧ v.bgn ≠ null ∧
      ∀ j T' v', m.vec j = some (T', v') → v'.bgn.base = a → j = i) ∧
    ((∀ i, m.vec i = none) → ∀ a, m.heap a = none) := by
  obtain ⟨own, hr⟩ := hh.rep hA ht
  obtain ⟨-, b2, b3, b4⟩ := hr.blocks
  refine ⟨fun op ha => ?_, fun i => ⟨fun hi => ?_, fun hi => (hr.dead i hi).1⟩, fun i V hi => ⟨hr.size_read hi,
    fun k b hk => hr.at_elem hi hk, _, (hr.live i V hi).1, rfl⟩, b2, b3, b4⟩
  · obtain ⟨o, m', y', _, hc, he, _⟩ := tcall_refines hA ht hr ha
    exact ⟨o, m', y', hc, he⟩
  · cases hy : y i with
    | none => rfl
    | some V => rw [(hr.live i V hy).1] at hi; cases hi

/-- an allocator that has no memory at the moments `f` -/
noncomputable def unlucky (throws : Bool) (f : Nat → Bool) : Alloc :=
  { anAlloc false false with fails := fun t _ => f t, throws := throws, expands := fun _ => false }

theorem unlucky_proper (b : Bool) (f : Nat → Bool) : Proper (unlucky b f).never :=
  ⟨(anAlloc_proper false false).1, (anAlloc_proper false false).2, fun _ _ => rfl⟩

/-- the history: `reserve(2)` throws, then `reserve(2)` does not -/
example : ∃ y m, Hist (unlucky true (· == 0)) [(.ctor 0 1 1, .reply .done), (.call 0 (.reserve 2), .badAlloc),
    (.call 0 (.reserve 2), .reply .done)] y m ∧ y 0 = some ⟨1, 1, 2, []⟩ := by
  have h1 : Hist (unlucky true (· == 0)) [(.ctor 0 1 1, .reply .done)] _ _ :=
    .snoc .nil (op := .ctor 0 1 1) ⟨rfl, ⟨by omega, by omega, 0, rfl⟩, id⟩ rfl rfl
  have a : Allowed 16 false true (.call 0 (.reserve 2)) (none_.put 0 (some ⟨1, 1, 0, []⟩)) :=
    ⟨rfl, fun _ _ => trivial, by rintro ⟨V, -, h⟩; exact h⟩
  have h2 := Hist.snoc h1 (op := .call 0 (.reserve 2)) (o := .badAlloc) a rfl ⟨⟨_, rfl, (show 0 < 2 by decide)⟩, rfl⟩
  obtain ⟨o, m', y', e, hy⟩ := (C61_pod_vector_bad_alloc_partial (unlucky_proper _ _) rfl h2).1 _ a
  have e' := congrArg (Option.map Prod.fst) e
  simp [tcall, mexec, Mem.init, at', exec, reserve, size, null, unlucky, anAlloc, aReallocBegin, Params.aligned, realloc,
      malloc, Ty.params, Ptr.add, setBegin, setCap, setSize, getNewCapacity] at e'
  subst e'
  refine ⟨y', m', .snoc h2 a e hy, ?_⟩
  simp only [Effect] at hy
  have e2 : (mstep 16 true (.call 0 (.reserve 2)) (none_.put 0 (some ⟨1, 1, 0, []⟩))).map (fun p => p.2 0) =
    some (some ⟨1, 1, 2, []⟩) := rfl
  erw [hy] at e2
  simpa using e2

/-! ### Assigning more than there is room for -/

/-- the vector a call is made on -/
def target : MOp → Nat
  | .ctor i _ _ | .ctorCount i _ _ _ | .ctorVal i _ _ _ _ | .ctorRange i _ _ _ | .copyCtor i _ | .moveCtor i _
  | .copyAssign i _ | .moveAssign i _ | .swap _ i _ | .recastCopy i _ | .recastTake i _ | .dtor i | .call i _ => i

theorem safeGrow_throws {P : Params} (ht : P.A.throws = true) {n : Nat} {s s1 : St} (hf : aFreeBegin P s = .ok () s1)
    (hx : ∀ k, P.A.fails s.tick k = true) (h1 : s1.tick = s.tick) (hn : s.v.cap < n) :
    safeGrow P n s = .throw .badAlloc ⟨{ s1.v with cap := getNewCapacity s.v.cap n }, s1.heap, s.tick + 1⟩ := by
  have hn' : ¬ n ≤ s.v.cap := by omega
  by_cases ha : P.aligned = true
  · simp only [safeGrow, M.bind_apply, M.get_apply, hn', if_false, hf, setCap, M.modify_apply, aMalloc, ha, if_true, malloc,
      hx, noMemory, ht, h1]
  · simp only [safeGrow, M.bind_apply, M.get_apply, hn', if_false, hf, setCap, M.modify_apply, aMalloc, ha, if_true, malloc,
      hx, noMemory, ht, h1, Bool.false_eq_true]

theorem MRep.heap0 {m : Mem} {y : Sys} {own : Nat → Option Own} (h : MRep A m y own) : m.heap 0 = none := by
  cases h0 : m.heap 0 with
  | none => rfl
  | some b =>
    exfalso
    obtain ⟨i, w, hw, hb, -⟩ := (h.heap 0 b).1 h0
    cases hy : y i with
    | none => rw [(h.dead i hy).2] at hw; cases hw
    | some V => exact ((h.live i V hy).2.good w hw).nz hb

/-- what is left of a vector when `safe_grow` throws -/
def Left (T : Ty) (v : Vec) (n : Nat) (m' : Mem) (i : Nat) : Prop :=
  ∃ v', m'.vec i = some (T, v') ∧ v'.bgn = v.bgn ∧ n ≤ v'.cap ∧ (v.bgn ≠ null → m'.heap v.bgn.base = none) ∧
    (v.bgn = null → v'.endp = null) ∧ m'.heap 0 = none

theorem assign_left (ht : A.throws = true) {m : Mem} {y : Sys} {own : Nat → Option Own} (h : MRep A.never m y own)
    (hx : ∀ k, A.fails m.tick k = true) {i : Nat} {V : Spec.V} (hi : y i = some V) {n : Nat} (hn : V.cap < n)
    {β : Type} {f : Params → M St β} (hf : ∀ P s e s', safeGrow P n s = .throw e s' → f P s = .throw e s')
    {v : Vec} (hb : v.bgn = (vecOf (own i) V).bgn) :
    ∃ m', at' A i f m = .throw .badAlloc m' ∧ Left ⟨V.sz, V.al⟩ v n m' i := by
  obtain ⟨hv, hs⟩ := h.live i V hi
  have hcap : n ≤ getNewCapacity V.cap n := by rw [getNewCapacity_eq hn]; exact newCap_ge _ _
  cases ho : own i with
  | none =>
    have hc0 := hs.cap0 ho
    have hl := hs.len
    have hl0 : V.xs.length = 0 := by omega
    have e1 := aFree_null (P := Ty.params ⟨V.sz, V.al⟩ A) ((null : Ptr).add (V.xs.length * V.sz)) V.cap m.heap m.tick
    have e2 := safeGrow_throws (P := Ty.params ⟨V.sz, V.al⟩ A) (n := n) ht e1 hx rfl hn
    have e3 := hf _ _ _ _ e2
    refine ⟨⟨Function.update m.vec i (some (⟨V.sz, V.al⟩, ⟨null, (null : Ptr).add (V.xs.length * V.sz), getNewCapacity V.cap n⟩)),
      m.heap, m.tick + 1⟩, ?_, ⟨null, (null : Ptr).add (V.xs.length * V.sz), getNewCapacity V.cap n⟩,
      Function.update_self _ _ _, ?_, hcap, ?_, ?_, h.heap0⟩
    · simp only [at', hv, vecOf, ho, ptrOf, e3]
    · rw [hb]; simp only [vecOf, ho, ptrOf]
    · intro hne; rw [hb] at hne; simp only [vecOf, ho, ptrOf] at hne; exact absurd rfl hne
    · intro _; simp [hl0, Ptr.add, null]
  | some w =>
    have g : Good (Ty.params ⟨V.sz, V.al⟩ A.never) w V.cap := hs.good w ho
    have g' : Good (Ty.params ⟨V.sz, V.al⟩ A) w V.cap := ⟨g.nz, g.fits, g.al0, g.al1, g.addr, g.balign⟩
    have e1 := aFree_ok g' ((⟨w.base, w.off⟩ : Ptr).add (V.xs.length * V.sz)) V.cap m.heap m.tick (h.own_heap ho)
    have e2 := safeGrow_throws (P := Ty.params ⟨V.sz, V.al⟩ A) (n := n) ht e1 hx rfl hn
    have e3 := hf _ _ _ _ e2
    refine ⟨⟨Function.update m.vec i (some (⟨V.sz, V.al⟩, ⟨⟨w.base, w.off⟩, (⟨w.base, w.off⟩ : Ptr).add (V.xs.length * V.sz),
      getNewCapacity V.cap n⟩)), Function.update m.heap w.base none, m.tick + 1⟩, ?_,
      ⟨⟨w.base, w.off⟩, (⟨w.base, w.off⟩ : Ptr).add (V.xs.length * V.sz), getNewCapacity V.cap n⟩,
      Function.update_self _ _ _, ?_, hcap, ?_, ?_, ?_⟩
    · simp only [at', hv, vecOf, ho, ptrOf, e3]
    · rw [hb]; simp only [vecOf, ho, ptrOf]
    · intro _; rw [hb]; simp [vecOf, ho, ptrOf]
    · intro hne; rw [hb] at hne; simp only [vecOf, ho, ptrOf, null, Ptr.mk.injEq] at hne; exact absurd hne.1 g.nz
    · show Function.update m.heap w.base none 0 = none
      rw [Function.update_of_ne (fun e => g.nz e.symm)]; exact h.heap0

theorem assignCopy_throw {n : Nat} (l : List Cell) (P : Params) (s : St) (e : Exc) (s' : St)
    (h : safeGrow P n s = .throw e s') : assignCopy P n l s = .throw e s' := by
  simp only [assignCopy, M.bind_apply, h]

/-- an assignment that has to enlarge the buffer, at a moment when there is no memory -/
theorem fatal_left (ht : A.throws = true) {m : Mem} {y : Sys} {own : Nat → Option Own} (h : MRep A.never m y own)
    (hx : ∀ k, A.fails m.tick k = true) {op : MOp} (hok : (mstep A.align A.zeroFill op y).isSome) (hf : MFatal op y)
    {T : Ty} {v : Vec} (hv : m.vec (target op) = some (T, v)) :
    ∃ m' n, tcall A op m = some (.badAlloc, m') ∧ v.cap < n ∧ Left T v n m' (target op) := by
  cases op with
  | copyAssign i j =>
    obtain ⟨hij, V, W, hi, hj, hc⟩ := hf
    have hji : j ≠ i := fun e => hij e.symm
    simp only [target] at hv ⊢
    rw [(h.live i V hi).1] at hv
    cases hv
    obtain ⟨m1, own1, e1, h1, -⟩ := clear_at h hi
    have hj1 : (y.put i (some { V with xs := [] })) j = some W := by rw [put_ne _ hji]; exact hj
    have hi1 := put_self y i (some { V with xs := [] })
    have ec : m1.tick = m.tick ∧ (vecOf (own1 i) { V with xs := [] }).bgn = (vecOf (own i) V).bgn := by
      have hv1 := (h1.live i _ hi1).1
      simp only [at', (h.live i V hi).1, clear, setSize, M.modify_apply, Res.ok.injEq, true_and] at e1
      subst e1
      refine ⟨rfl, ?_⟩
      simp only [Function.update_self, Option.some.injEq, Prod.mk.injEq] at hv1
      rw [← hv1.2]
    obtain ⟨m', e2, hl⟩ := assign_left (v := vecOf (own i) V) ht h1 (by rw [ec.1]; exact hx) hi1
      (n := W.xs.length) hc (f := fun P => assignCopy P W.xs.length (bytesOf (own1 j) (W.xs.length * W.sz)))
      (fun P s e s' => assignCopy_throw _ P s e s') ec.2.symm
    have e4 : at' A i clear m = .ok () m1 := e1
    have e5 : at' A j size m1 = .ok W.xs.length m1 := h1.size_read hj1
    have e6 : at' A j bytes m1 = .ok (bytesOf (own1 j) (W.xs.length * W.sz)) m1 := h1.bytes_read hj1
    refine ⟨m', W.xs.length, ?_, hc, hl⟩
    simp only [tcall, mexec, copyAssign, hij, if_false, M.bind_apply, e4, e5, e6, e2]
  | recastCopy i j =>
    obtain ⟨V, W, hi, hj, hc⟩ := hf
    have hij : i ≠ j := by
      intro e
      simp only [mstep, hi, hj, Option.bind_eq_bind, Option.bind_some, if_pos e] at hok
      cases hok
    have hji : j ≠ i := fun e => hij e.symm
    simp only [target] at hv ⊢
    rw [(h.live i V hi).1] at hv
    cases hv
    rw [recast_length (h.live j W hj).2] at hc
    obtain ⟨m1, own1, e1, h1, -⟩ := clear_at h hi
    have hj1 : (y.put i (some { V with xs := [] })) j = some W := by rw [put_ne _ hji]; exact hj
    have hi1 := put_self y i (some { V with xs := [] })
    have ec : m1.tick = m.tick ∧ (vecOf (own1 i) { V with xs := [] }).bgn = (vecOf (own i) V).bgn := by
      have hv1 := (h1.live i _ hi1).1
      simp only [at', (h.live i V hi).1, clear, setSize, M.modify_apply, Res.ok.injEq, true_and] at e1
      subst e1
      refine ⟨rfl, ?_⟩
      simp only [Function.update_self, Option.some.injEq, Prod.mk.injEq] at hv1
      rw [← hv1.2]
    obtain ⟨m', e2, hl⟩ := assign_left (v := vecOf (own i) V) ht h1 (by rw [ec.1]; exact hx) hi1
      (n := W.xs.length * W.sz / V.sz) hc (f := fun P => assignCopy P (W.xs.length * W.sz / V.sz)
        ((bytesOf (own1 j) (W.xs.length * W.sz)).take (W.xs.length * W.sz / V.sz * V.sz)))
      (fun P s e s' => assignCopy_throw _ P s e s') ec.2.symm
    have e3 : at' A i (fun P => assignCopy P (W.xs.length * W.sz / P.sz)
        ((bytesOf (own1 j) (W.xs.length * W.sz)).take (W.xs.length * W.sz / P.sz * P.sz))) m1 = .throw .badAlloc m' := by
      rw [← e2]
      simp only [at', (h1.live i _ hi1).1]
      rfl
    have e4 : at' A i clear m = .ok () m1 := e1
    have e5 : at' A j size m1 = .ok W.xs.length m1 := h1.size_read hj1
    have e6 : at' A j bytes m1 = .ok (bytesOf (own1 j) (W.xs.length * W.sz)) m1 := h1.bytes_read hj1
    refine ⟨m', W.xs.length * W.sz / V.sz, ?_, hc, hl⟩
    simp only [tcall, mexec, recastCopy, M.bind_apply, e4, e5, e6, tyOf_ok h1 hj1, e3]
  | call i op =>
    obtain ⟨V, hi, hc⟩ := hf
    simp only [target] at hv ⊢
    rw [(h.live i V hi).1] at hv
    cases hv
    cases op with
    | assignN n a =>
      obtain ⟨m', e2, hl⟩ := assign_left (v := vecOf (own i) V) ht h hx hi (n := n) hc
        (f := fun P => exec P (.assignN n a)) (fun P s e s' hh => by
          rcases noEff_bindRef (P := P) a s with ⟨r, e'⟩ | e'
          · simp only [exec, assignN, M.bind_apply, e', hh]
          · cases a <;> cases e') rfl
      exact ⟨m', n, by simp only [tcall, mexec, e2], hc, hl⟩
    | assignRange ys =>
      obtain ⟨m', e2, hl⟩ := assign_left (v := vecOf (own i) V) ht h hx hi (n := ys.length) hc
        (f := fun P => exec P (.assignRange ys)) (fun P s e s' hh => by
          simp only [exec, assignCopy, M.bind_apply, hh]) rfl
      exact ⟨m', ys.length, by simp only [tcall, mexec, e2], hc, hl⟩
    | _ => exact hc.elim
  | _ => exact hf.elim

/-- **Defect.** When assigning more elements than fit (`assign`, `operator=`, `recast_copy_from`) to a vector that has a buffer
throws, the buffer is freed but still referred to: the destructor of the vector then has undefined behaviour (it frees the
buffer again), so that the program cannot go on. -/
theorem C61_assign_double_free (hA : Proper A.never) (ht : A.throws = true) {h : List (MOp × Out)} {y : Sys}
    {m : Mem} (hh : Hist A h y m) (op : MOp) (hok : (mstep A.align A.zeroFill op y).isSome) (hf : MFatal op y)
    (hx : ∀ k, A.fails m.tick k = true) {T : Ty} {v : Vec} (hv : m.vec (target op) = some (T, v)) (hb : v.bgn ≠ null) :
    ∃ m', tcall A op m = some (.badAlloc, m') ∧ tcall A (.dtor (target op)) m' = none := by
  obtain ⟨own, hr⟩ := hh.rep hA ht
  obtain ⟨m', n, e, -, v', hv', hb', -, hfree, -, -⟩ := fatal_left ht hr hx hok hf hv
  refine ⟨m', e, ?_⟩
  have h0 := hfree hb
  rw [← hb'] at h0 hb
  have ef : aFreeBegin (T.params A) ⟨v', m'.heap, m'.tick⟩ = .ub := by
    by_cases ha : (T.params A).aligned = true
    · simp only [aFreeBegin, M.bind_apply, M.get_apply, realAddr, ha, if_true, M.pure_apply, free, M.mem, hb, if_false, h0]
      split <;> simp_all
    · simp only [aFreeBegin, M.bind_apply, M.get_apply, realAddr, ha, Bool.false_eq_true, if_false, hb]
      by_cases ho : v'.bgn.off = 0
      · simp only [ho, if_true, M.undef_apply]
      · simp only [ho, if_false, M.bind_apply, readAt, M.load, h0]
  simp only [tcall, mexec, destruct, M.bind_apply, at', hv', ef]

/-- the defect occurs: `reserve(2)`, then `assign(3, 7)` throws -/
example : ∃ h y m, Hist (unlucky true (1 ≤ ·)) h y m ∧ ∃ m', tcall (unlucky true (1 ≤ ·)) (.call 0 (.assignN 3 (.val [7]))) m =
    some (.badAlloc, m') ∧ tcall (unlucky true (1 ≤ ·)) (.dtor 0) m' = none := by
  have h1 : Hist (unlucky true (1 ≤ ·)) [(.ctor 0 1 1, .reply .done)] _ _ :=
    .snoc .nil (op := .ctor 0 1 1) ⟨rfl, ⟨by omega, by omega, 0, rfl⟩, id⟩ rfl rfl
  have a : Allowed 16 false true (.call 0 (.reserve 2)) (none_.put 0 (some ⟨1, 1, 0, []⟩)) :=
    ⟨rfl, fun _ _ => trivial, by rintro ⟨V, -, h⟩; exact h⟩
  obtain ⟨o, m', y', e, hy⟩ := (C61_pod_vector_bad_alloc_partial (unlucky_proper _ _) rfl h1).1 _ a
  have e' := congrArg (Option.map (fun p => (p.1, p.2.vec 0, p.2.tick))) e
  simp [tcall, mexec, Mem.init, at', exec, reserve, size, null, unlucky, anAlloc, aReallocBegin, Params.aligned, realloc,
      malloc, Ty.params, Ptr.add, setBegin, setCap, setSize, getNewCapacity] at e'
  obtain ⟨rfl, e1, e2⟩ := e'
  have h2 := Hist.snoc h1 a e hy
  simp only [Effect] at hy
  have hy0 : (mstep 16 true (.call 0 (.reserve 2)) (none_.put 0 (some ⟨1, 1, 0, []⟩))).map (fun p => p.2 0) =
    some (some ⟨1, 1, 2, []⟩) := rfl
  erw [hy] at hy0
  simp only [Option.map_some, Option.some.injEq] at hy0
  refine ⟨_, _, _, h2, C61_assign_double_free (unlucky_proper _ _) rfl h2 _ ?_ ⟨_, hy0, (show 2 < 3 by decide)⟩ ?_ e1.symm ?_⟩
  · simp [mstep, hy0, step]; rfl
  · intro k; simp [unlucky, ← e2]
  · simp [null]

/-- **Defect.** When the vector has no buffer, it afterwards reports a capacity that it does not have, and the next
`push_back` has undefined behaviour. -/
theorem C61_assign_lost (hA : Proper A.never) (ht : A.throws = true) {h : List (MOp × Out)} {y : Sys}
    {m : Mem} (hh : Hist A h y m) (op : MOp) (hok : (mstep A.align A.zeroFill op y).isSome) (hf : MFatal op y)
    (hx : ∀ k, A.fails m.tick k = true) {T : Ty} {v : Vec} (hv : m.vec (target op) = some (T, v)) (hb : v.bgn = null)
    (a : List Byte) :
    ∃ m' c, tcall A op m = some (.badAlloc, m') ∧ tcall A (.call (target op) .capacity) m' = some (.reply (.num c), m') ∧
      0 < c ∧ tcall A (.call (target op) (.pushBack (.val a))) m' = none := by
  obtain ⟨own, hr⟩ := hh.rep hA ht
  obtain ⟨m', n, e, hn, v', hv', hb', hcap, -, hend, h0⟩ := fatal_left ht hr hx hok hf hv
  have hend := hend hb
  rw [hb] at hb'
  refine ⟨m', v'.cap, e, ?_, by omega, ?_⟩
  · simp only [tcall, mexec, at', hv', exec, M.bind_apply, M.get_apply, M.pure_apply]
    rw [← hv', Function.update_eq_self]
  · have es : size (T.params A) ⟨v', m'.heap, m'.tick⟩ = .ok 0 ⟨v', m'.heap, m'.tick⟩ := by
      simp [size, hend, hb', null]
    have e1 : 0 + 1 ≤ v'.cap := by omega
    simp only [tcall, mexec, at', hv', exec, pushBack, bindRef, emplaceBack, M.bind_apply, M.get_apply, M.pure_apply, es,
      reserve, e1, if_true, M.modify_apply, hend, backPtr, Ptr.add, null, Nat.zero_add, Nat.lt_irrefl, if_false, Nat.sub_self,
      loadRef, writeAt, M.mem, h0]

/-- the defect occurs: `assign(3, 7)` to a new vector throws -/
example : ∃ h y m, Hist (unlucky true (fun _ => true)) h y m ∧ ∃ m' c,
    tcall (unlucky true (fun _ => true)) (.call 0 (.assignN 3 (.val [7]))) m = some (.badAlloc, m') ∧
    tcall (unlucky true (fun _ => true)) (.call 0 .capacity) m' = some (.reply (.num c), m') ∧ 0 < c ∧
    tcall (unlucky true (fun _ => true)) (.call 0 (.pushBack (.val [7]))) m' = none := by
  have h1 : Hist (unlucky true (fun _ => true)) [(.ctor 0 1 1, .reply .done)] _ _ :=
    .snoc .nil (op := .ctor 0 1 1) ⟨rfl, ⟨by omega, by omega, 0, rfl⟩, id⟩ rfl rfl
  exact ⟨_, _, _, h1, C61_assign_lost (unlucky_proper _ _) rfl h1 (.call 0 (.assignN 3 (.val [7]))) rfl
    ⟨_, rfl, (show 0 < 3 by decide)⟩ (fun _ => rfl) rfl rfl [7]⟩

/-! ### Allocators that return a null pointer -/

section Null

variable {P : Params}

/-- out of memory from now on -/
def Exhausted (A : Alloc) (t0 : Nat) : Prop := (∀ t k, t0 ≤ t → A.fails t k = true) ∧ ∀ t, t0 ≤ t → A.expands t = false

theorem aMalloc_null (hn : P.A.throws = false) (n : Nat) (s : St) (hx : ∀ k, P.A.fails s.tick k = true) :
    aMalloc P n s = .ok null { s with tick := s.tick + 1 } := by
  by_cases ha : P.aligned = true
  · simp only [aMalloc, ha, if_true, malloc, hx, noMemory, hn, Bool.false_eq_true, if_false]
  · simp only [aMalloc, ha, Bool.false_eq_true, if_false, M.bind_apply, malloc, hx, noMemory, hn, if_true, alignPtr,
      M.pure_apply]

/-- accessing a null pointer, no block being at address 0 -/
theorem copy_null (src : Ptr) (n : Nat) (s : St) (h0 : s.heap 0 = none) : copyBytes null src n s = .ub := by
  rcases noEff_readAt src n s with ⟨l, e⟩ | e
  · simp only [copyBytes, M.bind_apply, e, writeAt, M.mem, null, h0]
  · simp only [copyBytes, M.bind_apply, e]

/-- what `reserve` leaves when the allocator has returned a null pointer -/
def Gone (N k : Nat) (P : Params) (s' : St) : Prop :=
  s'.v.bgn = null ∧ s'.v.endp = null.add (k * P.sz) ∧ s'.v.cap = N ∧ s'.heap 0 = none

theorem mallocCopy_null (hn : P.A.throws = false) (N k : Nat) (s s1 : St) (hx : ∀ k, P.A.fails s.tick k = true)
    (hf : aFreeBegin P { s with tick := s.tick + 1 } = .ok () s1) (h0 : s.heap 0 = none) (h1 : s1.heap 0 = none) :
    mallocCopy P N k s = .ub ∨
      ∃ s', mallocCopy P N k s = .ok () s' ∧ s'.v.bgn = null ∧ s'.v.cap = N ∧ s'.heap 0 = none := by
  by_cases hk : k = 0
  · right
    refine ⟨⟨{ s1.v with bgn := null, cap := N }, s1.heap, s1.tick⟩, ?_, rfl, rfl, h1⟩
    simp only [mallocCopy, M.bind_apply, aMalloc_null hn N s hx, M.get_apply, hk, ne_eq, not_true_eq_false, if_false,
      M.pure_apply, hf, setBegin, setCap, M.modify_apply]
  · left
    simp only [mallocCopy, M.bind_apply, aMalloc_null hn N s hx, M.get_apply, hk, ne_eq, not_false_eq_true, if_true,
      copy_null _ _ { s with tick := s.tick + 1 } h0]

theorem aReallocBegin_null (hn : P.A.throws = false) (N : Nat) (s : St) (hx : ∀ k, P.A.fails s.tick k = true)
    (h0 : s.heap 0 = none) :
    aReallocBegin P N s = .ub ∨
      ∃ s', aReallocBegin P N s = .ok () s' ∧ s'.v.bgn = null ∧ s'.v.cap = N ∧ s'.heap 0 = none := by
  have done : ∃ s' : St, (Res.ok () ⟨{ s.v with bgn := null, cap := N }, s.heap, s.tick + 1⟩ : Res St Unit) = .ok () s' ∧
      s'.v.bgn = null ∧ s'.v.cap = N ∧ s'.heap 0 = none := ⟨_, rfl, rfl, rfl, h0⟩
  by_cases ha : P.aligned = true
  · by_cases hb : s.v.bgn = null
    · right
      have e : aReallocBegin P N s = .ok () ⟨{ s.v with bgn := null, cap := N }, s.heap, s.tick + 1⟩ := by
        simp only [aReallocBegin, M.bind_apply, M.get_apply, ha, if_true, realloc, hb, malloc, hx, noMemory, hn,
          Bool.false_eq_true, if_false, setBegin, setCap, M.modify_apply]
      rw [e]; exact done
    · by_cases ho : s.v.bgn.off = 0
      · cases hh : s.heap s.v.bgn.base with
        | none =>
          left
          simp only [aReallocBegin, M.bind_apply, M.get_apply, ha, if_true, realloc, hb, if_false, ho, hh]
        | some b =>
          right
          have e : aReallocBegin P N s = .ok () ⟨{ s.v with bgn := null, cap := N }, s.heap, s.tick + 1⟩ := by
            simp only [aReallocBegin, M.bind_apply, M.get_apply, ha, if_true, realloc, hb, if_false, ho, hh, hx, noMemory, hn,
              Bool.false_eq_true, setBegin, setCap, M.modify_apply]
          rw [e]; exact done
      · left
        simp only [aReallocBegin, M.bind_apply, M.get_apply, ha, if_true, realloc, hb, if_false, ho]
  · by_cases hb : s.v.bgn = null
    · right
      have e : aReallocBegin P N s = .ok () ⟨{ s.v with bgn := null, cap := N }, s.heap, s.tick + 1⟩ := by
        simp only [aReallocBegin, M.bind_apply, M.get_apply, ha, Bool.false_eq_true, if_false, aMalloc_null hn N s hx, hb,
          if_true, setBegin, setCap, M.modify_apply]
      rw [e]; exact done
    · left
      simp only [aReallocBegin, M.bind_apply, M.get_apply, ha, Bool.false_eq_true, if_false, aMalloc_null hn N s hx, hb]
      rcases noEff_size (P := P) { s with tick := s.tick + 1 } with ⟨k, e⟩ | e
      · simp only [e, copy_null _ _ { s with tick := s.tick + 1 } h0]
      · simp only [e]

theorem aExpandBegin_null (n : Nat) (s : St) (hx : P.A.expands s.tick = false) :
    aExpandBegin P n s = .ub ∨ aExpandBegin P n s = .ok false { s with tick := s.tick + 1 } := by
  have key : ∀ p k, expand P.A p k s = .ub ∨ expand P.A p k s = .ok false { s with tick := s.tick + 1 } := by
    intro p k
    unfold expand
    split
    · split
      · exact .inl rfl
      · right; simp only [hx, Bool.false_eq_true, if_false]
    · exact .inl rfl
  by_cases ha : P.aligned = true
  · simp only [aExpandBegin, M.bind_apply, M.get_apply, ha, if_true]
    rcases key s.v.bgn (n * P.sz) with e | e <;> simp [e]
  · simp only [aExpandBegin, M.bind_apply, M.get_apply, ha, Bool.false_eq_true, if_false]
    rcases noEff_realAddr (P := P) s.v.bgn s with ⟨p, e⟩ | e
    · rcases key p (n * P.sz + P.al) with e' | e' <;> simp [e, e']
    · simp [e]

theorem reserve_null (hn : P.A.throws = false) {v : Vec} {H : Heap} {t k n : Nat}
    (hk : size P ⟨v, H, t⟩ = .ok k ⟨v, H, t⟩)
    (hf : ∀ u, ∃ H', aFreeBegin P ⟨v, H, u⟩ = .ok () ⟨v, H', u⟩ ∧ H' 0 = none)
    (h0 : H 0 = none) (hc : v.cap < n) (hx : Exhausted P.A t) :
    reserve P n ⟨v, H, t⟩ = .ub ∨ ∃ r s', reserve P n ⟨v, H, t⟩ = .ok r s' ∧ Gone (getNewCapacity v.cap n) k P s' := by
  have hc' : ¬ n ≤ v.cap := by omega
  have hxt : ∀ k, P.A.fails t k = true := fun k => hx.1 t k (Nat.le_refl _)
  have hxt1 : ∀ k, P.A.fails (t + 1) k = true := fun k => hx.1 (t + 1) k (Nat.le_succ _)
  have fin : ∀ s' : St, s'.v.bgn = null → s'.v.cap = getNewCapacity v.cap n → s'.heap 0 = none →
      ∃ r s'', (Res.ok (decide (v.bgn.addr ≠ s'.v.bgn.addr)) ⟨{ s'.v with endp := s'.v.bgn.add (k * P.sz) }, s'.heap, s'.tick⟩ :
        Res St Bool) = .ok r s'' ∧ Gone (getNewCapacity v.cap n) k P s'' := by
    intro s' h1 h2 h3
    exact ⟨_, _, rfl, h1, by rw [h1], h2, h3⟩
  by_cases he : P.A.hasExpand = true
  · by_cases hb : v.bgn = null
    · right
      have e := aMalloc_null hn (getNewCapacity v.cap n) ⟨v, H, t⟩ hxt
      have := fin ⟨{ v with bgn := null, cap := getNewCapacity v.cap n }, H, t + 1⟩ rfl rfl h0
      simp only [hb] at this
      simp only [reserve, M.bind_apply, M.get_apply, hc', if_false, hk, he, if_true, hb, e, setBegin, setCap, setSize,
        M.modify_apply, M.pure_apply]
      exact this
    · rcases aExpandBegin_null (getNewCapacity v.cap n) ⟨v, H, t⟩ (hx.2 t (Nat.le_refl _)) with e | e
      · left
        simp only [reserve, M.bind_apply, M.get_apply, hc', if_false, hk, he, if_true, hb, e]
      · obtain ⟨H', hf1, hf2⟩ := hf (t + 1 + 1)
        rcases mallocCopy_null hn (getNewCapacity v.cap n) k ⟨v, H, t + 1⟩ _ hxt1 hf1 h0 hf2 with e' | ⟨s', e', h1, h2, h3⟩
        · left
          simp only [reserve, M.bind_apply, M.get_apply, hc', if_false, hk, he, if_true, hb, e, e', Bool.false_eq_true]
        · right
          simp only [reserve, M.bind_apply, M.get_apply, hc', if_false, hk, he, if_true, hb, e, e', Bool.false_eq_true,
            setSize, M.modify_apply, M.pure_apply]
          exact fin s' h1 h2 h3
  · by_cases hw : (v.cap - k) * P.sz > P.A.wasteful
    · obtain ⟨H', hf1, hf2⟩ := hf (t + 1)
      rcases mallocCopy_null hn (getNewCapacity v.cap n) k ⟨v, H, t⟩ _ hxt hf1 h0 hf2 with e' | ⟨s', e', h1, h2, h3⟩
      · left
        simp only [reserve, M.bind_apply, M.get_apply, hc', if_false, hk, he, hw, if_true, e', Bool.false_eq_true]
      · right
        simp only [reserve, M.bind_apply, M.get_apply, hc', if_false, hk, he, hw, if_true, e', Bool.false_eq_true,
          setSize, M.modify_apply, M.pure_apply]
        exact fin s' h1 h2 h3
    · rcases aReallocBegin_null hn (getNewCapacity v.cap n) ⟨v, H, t⟩ hxt h0 with e' | ⟨s', e', h1, h2, h3⟩
      · left
        simp only [reserve, M.bind_apply, M.get_apply, hc', if_false, hk, he, hw, e', Bool.false_eq_true]
      · right
        simp only [reserve, M.bind_apply, M.get_apply, hc', if_false, hk, he, hw, e', Bool.false_eq_true,
          setSize, M.modify_apply, M.pure_apply]
        exact fin s' h1 h2 h3

/-- `reserve` on one of several vectors -/
theorem at_reserve_null (hn : A.throws = false) {m : Mem} (hr : WellFormed A.never m) {i : Nat} {T : Ty} {v : Vec}
    (hv : m.vec i = some (T, v)) {n : Nat} (hc : v.cap < n) (hx : Exhausted A m.tick) :
    0 < T.sz ∧ ∃ k, k ≤ v.cap ∧ size (T.params A) ⟨v, m.heap, m.tick⟩ = .ok k ⟨v, m.heap, m.tick⟩ ∧
      (reserve (T.params A) n ⟨v, m.heap, m.tick⟩ = .ub ∨ ∃ r s', reserve (T.params A) n ⟨v, m.heap, m.tick⟩ = .ok r s' ∧
        Gone (getNewCapacity v.cap n) k (T.params A) s') := by
  obtain ⟨y, own, h⟩ := hr
  cases hy : y i with
  | none => rw [(h.dead i hy).1] at hv; cases hv
  | some V =>
    obtain ⟨hvi, hs⟩ := h.live i V hy
    rw [hvi] at hv
    cases hv
    have hsz : size (Ty.params ⟨V.sz, V.al⟩ A) ⟨vecOf (own i) V, m.heap, m.tick⟩ =
        .ok V.xs.length ⟨vecOf (own i) V, m.heap, m.tick⟩ := size_st hs.wf _ _ _ _ _
    refine ⟨hs.wf.sz, V.xs.length, hs.len, hsz, reserve_null (P := Ty.params ⟨V.sz, V.al⟩ A) hn hsz (fun u => ?_) h.heap0 hc hx⟩
    cases ho : own i with
    | none => exact ⟨m.heap, aFree_null _ _ _ _, h.heap0⟩
    | some w =>
      have g : Good (Ty.params ⟨V.sz, V.al⟩ A.never) w V.cap := hs.good w ho
      have g' : Good (Ty.params ⟨V.sz, V.al⟩ A) w V.cap := ⟨g.nz, g.fits, g.al0, g.al1, g.addr, g.balign⟩
      refine ⟨Function.update m.heap w.base none, aFree_ok g' _ _ _ _ (h.own_heap ho), ?_⟩
      rw [Function.update_of_ne (fun e => g.nz e.symm)]; exact h.heap0

end Null

/-- **Defect.** With an allocator that returns `nullptr` when there is no memory, as the default one does, `reserve` in any
state either has undefined behaviour at once or returns as if nothing had happened: `capacity()` is what was asked for,
but `data()` is null; any access to an element is undefined behaviour, and asking again for this much does nothing. -/
theorem C61_reserve_null (hn : A.throws = false) {m : Mem} (hr : WellFormed A.never m) {i : Nat} {T : Ty} {v : Vec}
    (hv : m.vec i = some (T, v)) {n : Nat} (hc : v.cap < n) (hx : Exhausted A m.tick) :
    mcall A (.call i (.reserve n)) m = none ∨
      ∃ m' v', mcall A (.call i (.reserve n)) m = some (.done, m') ∧ m'.vec i = some (T, v') ∧ n ≤ v'.cap ∧ v'.bgn = null ∧
        (∀ k x, mcall A (.call i (.set k x)) m' = none) ∧ (∀ k, mcall A (.call i (.get k)) m' = none) ∧
        ∀ n', n' ≤ n → at' A i (fun P => reserve P n') m' = .ok false m' := by
  obtain ⟨-, k, -, -, e | ⟨r, s', e, h1, -, h3, h4⟩⟩ := at_reserve_null hn hr hv hc hx
  · left; simp only [mcall, mexec, at', hv, exec, M.bind_apply, e]
  · right
    have hcap : n ≤ s'.v.cap := by rw [h3, getNewCapacity_eq hc]; exact newCap_ge _ _
    refine ⟨⟨Function.update m.vec i (some (T, s'.v)), s'.heap, s'.tick⟩, s'.v, ?_, Function.update_self _ _ _, hcap, h1,
      fun j x => ?_, fun j => ?_, fun n' hn' => ?_⟩
    · simp only [mcall, mexec, at', hv, exec, M.bind_apply, e, M.pure_apply]
    · simp only [mcall, mexec, at', Function.update_self, exec, setAt, M.bind_apply, M.get_apply, writeAt, M.mem, Ptr.add, h1,
        null, h4]
    · simp only [mcall, mexec, at', Function.update_self, exec, at_, M.bind_apply, M.get_apply, readAt, M.load, Ptr.add, h1,
        null, h4]
    · have hc2 : n' ≤ s'.v.cap := by omega
      simp only [at', Function.update_self, reserve, M.bind_apply, M.get_apply, hc2, if_true, M.pure_apply,
        Function.update_idem]

/-- **Defect.** In any state, `push_back` to a full vector has undefined behaviour if the allocator returns `nullptr`. -/
theorem C61_push_back_null (hn : A.throws = false) {m : Mem} (hr : WellFormed A.never m) {i : Nat} {T : Ty} {v : Vec}
    (hv : m.vec i = some (T, v)) (hfull : at' A i size m = .ok v.cap m) (hx : Exhausted A m.tick) (a : List Byte) :
    mcall A (.call i (.pushBack (.val a))) m = none := by
  obtain ⟨h0, k, -, hk, hres⟩ := at_reserve_null hn hr hv (n := v.cap + 1) (by omega) hx
  have hkc : k = v.cap := by
    simp only [at', hv, hk, Res.ok.injEq] at hfull
    exact hfull.1
  subst hkc
  rcases hres with e | ⟨r, s', e, h1, h2, h3, h4⟩
  · simp only [mcall, mexec, at', hv, exec, pushBack, emplaceBack, bindRef, M.bind_apply, M.get_apply, M.pure_apply, hk, e]
  · have hsz : (T.params A).sz = T.sz := rfl
    have hlt : ¬ v.cap * T.sz + T.sz < T.sz := by omega
    simp only [mcall, mexec, at', hv, exec, pushBack, emplaceBack, bindRef, M.bind_apply, M.get_apply, M.pure_apply, hk, e,
      M.modify_apply, h2, backPtr, Ptr.add, null, Nat.zero_add, hsz, hlt, if_false, loadRef, writeAt, M.mem, h4]

/-- **Defect.** And so has growing `resize` when the elements are to be zeroed. -/
theorem C61_resize_null (hn : A.throws = false) (hz : A.zeroFill = true) {m : Mem} (hr : WellFormed A.never m) {i : Nat}
    {T : Ty} {v : Vec} (hv : m.vec i = some (T, v)) {n : Nat} (hc : v.cap < n) (hx : Exhausted A m.tick) :
    mcall A (.call i (.resize n)) m = none := by
  obtain ⟨h0, k, hkc, hk, e | ⟨r, s', e, h1, h2, h3, h4⟩⟩ := at_reserve_null hn hr hv hc hx
  · simp only [mcall, mexec, at', hv, exec, resize, M.bind_apply, e]
  · have hsz : (T.params A).sz = T.sz := rfl
    have es : size (T.params A) s' = .ok k s' := by
      simp only [size, M.bind_apply, M.get_apply, h1, h2, Ptr.add, null, Nat.zero_add, Nat.zero_le, true_and, if_true,
        Nat.sub_zero, M.pure_apply, hsz, Nat.mul_div_cancel _ h0]
    have hz' : (T.params A).A.zeroFill = true := hz
    have hgt : n > k := by omega
    simp only [mcall, mexec, at', hv, exec, resize, M.bind_apply, e, es, M.get_apply, hgt, hz', and_self, if_true, writeAt,
      M.mem, h2, Ptr.add, null, h4]

/-- the defects occur: a new vector and no memory at all -/
example : ∃ m, WellFormed (unlucky false (fun _ => true)).never m ∧
    mcall (unlucky false (fun _ => true)) (.call 0 (.pushBack (.val [7]))) m = none ∧
    mcall (unlucky false (fun _ => true)) (.call 0 (.resize 1)) m = none ∧
    ∃ m', mcall (unlucky false (fun _ => true)) (.call 0 (.reserve 5)) m = some (.done, m') ∧
      mcall (unlucky false (fun _ => true)) (.call 0 (.set 0 [7])) m' = none := by
  have hr : Reaches (unlucky false (fun _ => true)).never _ _ := ⟨[.ctor 0 1 1], _, rfl,
    ⟨⟨by omega, by omega, 0, rfl⟩, fun _ _ _ => trivial⟩, rfl⟩
  have hw := hr.wellFormed (unlucky_proper _ _)
  have hx : Exhausted (unlucky false (fun _ => true)) 0 := ⟨fun _ _ _ => rfl, fun _ _ => rfl⟩
  refine ⟨_, hw, C61_push_back_null (v := ⟨null, null, 0⟩) (T := ⟨1, 1⟩) rfl hw rfl
    (by simp [at', size, Ty.params, null, Function.update_idem]) hx [7],
    C61_resize_null (v := ⟨null, null, 0⟩) (T := ⟨1, 1⟩) rfl rfl hw rfl (by decide) hx, ?_⟩
  rcases C61_reserve_null (i := 0) (v := ⟨null, null, 0⟩) (T := ⟨1, 1⟩) (n := 5) rfl hw rfl (by decide) hx with
    e | ⟨m', v', e, -, -, -, e', -⟩
  · cases e
  · exact ⟨m', e, e' 0 [7]⟩

end Itlib.PodVector
