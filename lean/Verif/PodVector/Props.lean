import Verif.PodVector.MultiStep

/-!
# Properties of `pod_vector`

C10 (sequence), C11 (memory), C12 (reported relocation), C13 (over-aligned storage), C14 (recasting), the `pod_vector`
part of C48 (equality). Programs have any number of vectors, of any element sizes and alignments, over one heap; the
allocator is any `Proper` one: it hands out unused, aligned, non-null addresses, and is free in which, in whether `realloc`
moves and in whether `expand` succeeds.
-/
namespace Itlib.PodVector
open Itlib Spec
variable {A : Alloc}

/-- no vectors -/
def none_ : Sys := fun _ => none

/-- `m` is a state of a program after some history of calls that the specification allows and that avoids the excluded
ones; `y` is what the specification says of it. -/
def Reaches (A : Alloc) (y : Sys) (m : Mem) : Prop :=
  ∃ ops rs, Spec.mrun A.align A.zeroFill ops none_ = some (rs, y) ∧ MSafeRun A.align A.hasExpand A.zeroFill ops none_ ∧
    mrun A ops Mem.init = some (rs, m)

theorem reaches_rep {y : Sys} {m : Mem} (hA : Proper A) (hr : Reaches A y m) : ∃ own, MRep A m y own := by
  obtain ⟨ops, rs, h1, h2, h3⟩ := hr
  obtain ⟨m', own, e, h⟩ := mrun_refines hA MRep.init h2 h1
  rw [h3] at e
  simp only [Option.some.injEq, Prod.mk.injEq, true_and] at e
  subst e
  exact ⟨own, h⟩

/-- Every vector is in order: no buffer and capacity 0, or a live block of its own that is aligned, holds the capacity and
(if the type is over-aligned) has the offset byte before the payload; `size() ≤ capacity()`. All reachable states are well
formed, and it is not said what the elements are. -/
def WellFormed (A : Alloc) (m : Mem) : Prop := ∃ y own, MRep A m y own

theorem Reaches.wellFormed {y : Sys} {m : Mem} (hA : Proper A) (hr : Reaches A y m) : WellFormed A m :=
  ⟨y, reaches_rep hA hr⟩

/-- An allocator that satisfies the assumptions: the first block is at address 16, the others anywhere. -/
noncomputable def anAlloc (moves expand : Bool) : Alloc where
  align := 16
  hasExpand := expand
  wasteful := 4096
  zeroFill := true
  pick h _ _ :=
    open Classical in
    if h 16 = none then 16
    else if w : ∃ k, 0 < k ∧ h (16 * k) = none then 16 * w.choose else 16
  moves _ := moves
  expands _ := true
  fails _ _ := false
  throws := false

theorem anAlloc_proper (b c : Bool) : Proper (anAlloc b c) := by
  refine ⟨fun h t n ⟨B, hB⟩ => ?_, ⟨4, rfl⟩, fun _ _ => rfl⟩
  have w : ∃ k, 0 < k ∧ h (16 * k) = none := ⟨B + 1, by omega, hB _ (by omega)⟩
  by_cases h0 : h 16 = none
  · simp [anAlloc, h0]
  · have e : (anAlloc b c).pick h t n = 16 * w.choose := by
      simp only [anAlloc, h0, if_false, w, dif_pos]
    rw [e]
    have := w.choose_spec
    refine ⟨by omega, ⟨w.choose, rfl⟩, this.2⟩

theorem at_vec {P : Params} {o : Option Own} {cap n t k : Nat} {H : Heap} {xs : List E} {b : List Byte}
    (hg : ∀ w, o = some w → Good P w cap ∧ H w.base = some w.blk) (h0 : o = none → cap = 0) (hn : xs.length ≤ cap)
    (hh : Holds P o xs) (hk : xs[k]? = some (some b)) :
    at_ P k ⟨⟨ptrOf o, (ptrOf o).add n, cap⟩, H, t⟩ = .ok b ⟨⟨ptrOf o, (ptrOf o).add n, cap⟩, H, t⟩ := by
  have hlt := (List.getElem?_eq_some_iff.1 hk).1
  cases o with
  | none => have := h0 rfl; omega
  | some w =>
    obtain ⟨g, hw⟩ := hg w rfl
    have e := readSlots w g ⟨ptrOf (some w), (ptrOf (some w)).add n, cap⟩ H t k 1 hw (by omega)
    rw [Nat.one_mul, show w.blk.sl (w.off + k * P.sz) P.sz = b.map some from hh k b hk] at e
    simp only [ptrOf_some, Ptr.add] at e
    simp only [at_, M.bind_apply, M.get_apply, ptrOf_some, Ptr.add, e, mapM_id_map_some, M.pure_apply]

theorem MRep.at_elem {m : Mem} {y : Sys} {own : Nat → Option Own} (h : MRep A m y own) {i k : Nat} {V : Spec.V} {b : List Byte}
    (hy : y i = some V) (hk : V.xs[k]? = some (some b)) : at' A i (fun P => at_ P k) m = .ok b m := by
  obtain ⟨hv, hs⟩ := h.live i V hy
  refine h.at_read hy (fun P => at_ P k) ?_
  exact at_vec (P := prm A V) (fun w hw => ⟨hs.good w hw, h.own_heap hw⟩) hs.cap0 hs.len hs.holds hk

/-! ## C10 -/

/-- **C10 (partial).** Any history of calls, on any number of vectors, whose preconditions hold and which avoids the calls
excluded by `MSafeRun` runs without undefined behaviour whatever the allocator decides, gives the replies of the
specification, and leaves in every vector the elements of the specified list, as read through `size()` and `operator[]`;
`capacity()` is as specified too.

Missing for the full property: the calls excluded by `Safe` and `MSafe`, on which the code is wrong, see the theorems
`C10_defect_*`, `C11_defect_*`, `C13_defect_*`. -/
theorem C10_pod_vector_sequence_partial (hA : Proper A) (ops : List MOp) (rs : List Reply) (y : Sys)
    (hspec : Spec.mrun A.align A.zeroFill ops none_ = some (rs, y))
    (hsafe : MSafeRun A.align A.hasExpand A.zeroFill ops none_) :
    ∃ m, mrun A ops Mem.init = some (rs, m) ∧ (∀ i, m.vec i = none ↔ y i = none) ∧
      ∀ i V, y i = some V → at' A i size m = .ok V.xs.length m ∧
        (∀ k b, V.xs[k]? = some (some b) → at' A i (fun P => at_ P k) m = .ok b m) ∧
        ∃ v, m.vec i = some (⟨V.sz, V.al⟩, v) ∧ v.cap = V.cap := by
  obtain ⟨m, own, e, h⟩ := mrun_refines hA MRep.init hsafe hspec
  refine ⟨m, e, fun i => ⟨fun hi => ?_, fun hi => (h.dead i hi).1⟩, fun i V hi => ⟨h.size_read hi,
    fun k b hk => h.at_elem hi hk, _, (h.live i V hi).1, rfl⟩⟩
  cases hy : y i with
  | none => rfl
  | some V => rw [(h.live i V hy).1] at hi; cases hi

/-- a history over vectors of 1-byte, 2-byte and over-aligned elements that uses every function of the interface -/
def demoOps : List MOp :=
  [.ctor 0 1 1, .call 0 (.pushBack (.val [1])), .call 0 (.insert 0 (.val [2])), .call 0 (.insertN 1 3 (.val [7])),
   .call 0 (.insertRange 2 [[8], [9]]), .call 0 (.insert 3 (.self 2)), .call 0 (.erase 1), .call 0 (.eraseRange 2 4),
   .call 0 (.reserve 20), .call 0 (.pushBack (.self 1)), .call 0 .popBack, .call 0 (.resize 8), .call 0 (.resizeV 3 (.val [4])),
   .call 0 (.assignN 5 (.self 1)), .call 0 (.set 2 [6]), .call 0 (.get 2), .call 0 .getBack, .call 0 .shrinkToFit,
   .call 0 .size, .call 0 .capacity, .call 0 (.assignRange [[1], [2], [3], [4], [5]]),
   .ctorCount 1 2 2 3, .ctorVal 2 2 2 2 [5, 6], .ctorRange 3 32 32 [List.replicate 32 1], .copyCtor 4 2, .moveCtor 5 4,
   .copyAssign 1 2, .moveAssign 2 1, .swap 9 2 5, .recastCopy 1 0, .recastTake 1 0, .call 1 (.pushBack (.val [8, 8])),
   .call 3 (.emplaceBack), .call 3 (.reserve 10), .call 3 .clear, .dtor 3, .dtor 1]

example : (Spec.mrun 16 true demoOps none_).isSome = true := by decide +kernel

theorem at_ok {β : Type} {m : Mem} {i : Nat} {T : Ty} {v : Vec} {f : Params → M St β} {r : β} {s : St}
    (hv : m.vec i = some (T, v)) (e : f (T.params A) ⟨v, m.heap, m.tick⟩ = .ok r s) :
    at' A i f m = .ok r ⟨Function.update m.vec i (some (T, s.v)), s.heap, s.tick⟩ := by
  simp only [at', hv, e]

theorem mcall_ok {m : Mem} {i : Nat} {T : Ty} {v : Vec} {op : Op} {r : Reply} {s : St} (hv : m.vec i = some (T, v))
    (e : exec (T.params A) op ⟨v, m.heap, m.tick⟩ = .ok r s) :
    mcall A (.call i op) m = some (r, ⟨Function.update m.vec i (some (T, s.v)), s.heap, s.tick⟩) := by
  simp only [mcall, mexec, at', hv, e]

theorem mcall_ub {m : Mem} {i : Nat} {T : Ty} {v : Vec} {op : Op} (hv : m.vec i = some (T, v))
    (e : exec (T.params A) op ⟨v, m.heap, m.tick⟩ = .ub) : mcall A (.call i op) m = none := by
  simp only [mcall, mexec, at', hv, e]

/-- Defect: inserting an element of the vector itself before its own position inserts its left neighbour instead, if the
capacity suffices. -/
theorem C10_defect_insert_alias (hA : Proper A) {y : Sys} {m : Mem} (hr : Reaches A y m) (i : Nat) (V : Spec.V)
    (hy : y i = some V) (pos k : Nat) (hk : pos < k) (hl : k < V.xs.length) (hc : V.xs.length + 1 ≤ V.cap) (b : List Byte)
    (hb : V.xs[k - 1]? = some (some b)) :
    ∃ m', mcall A (.call i (.insert pos (.self k))) m = some (.done, m') ∧ at' A i (fun P => at_ P pos) m' = .ok b m' := by
  obtain ⟨own, h⟩ := reaches_rep hA hr
  obtain ⟨hv, hs⟩ := h.live i V hy
  have hfit := hs.fits (h0 := rest m own i) (fun w hw => MRep.rest_own i hw)
  have hn := hs.len
  obtain ⟨o', t', e1, f', gp⟩ := growAt_ok hs.wf (h.bdd_rest i) hfit V.xs.length pos 1 m.tick hn (by omega)
  rw [newCap_of_le hc] at e1 f'
  obtain ⟨w, rfl⟩ := f'.null_cap (by omega)
  obtain ⟨g, hw⟩ := f'
  have hst := (gp.stay hc).1
  have hsl : slot (prm A V) w k = b.map some := by
    have := gp.high (k - 1) (by omega) (by omega)
    rw [show k - 1 + 1 = k by omega] at this
    show slotO (prm A V) (some w) k = _
    rw [this]
    exact hs.holds _ _ hb
  have e2 := loadRef_ok (r := .slot ((ptrOf (own i)).add (k * V.sz))) (c := b.map some) g
    ⟨k, by omega, by rw [← hst]; rfl, hsl⟩ (st (prm A V) (rest m own i) (some w) V.cap (V.xs.length + 1) t').v
    (heapOf (rest m own i) (some w)) t' (by simp [heapOf])
  have hbl : (b.map some : List Cell).length = V.sz := by rw [← hsl]; exact slot_length _ _ _
  obtain ⟨w', e3, hb3, ho3, g3, hs3⟩ := writeSlot (h0 := rest m own i) g
    (st (prm A V) (rest m own i) (some w) V.cap (V.xs.length + 1) t').v t' pos (b.map some) hbl (by omega)
  have hst0 : (⟨vecOf (own i) V, m.heap, m.tick⟩ : St) = st (prm A V) (rest m own i) (own i) V.cap V.xs.length m.tick := by
    simp only [st, h.heapOf_rest]; rfl
  have eI : exec (prm A V) (.insert pos (.self k)) ⟨vecOf (own i) V, m.heap, m.tick⟩ =
      .ok .done (st (prm A V) (rest m own i) (some w') V.cap (V.xs.length + 1) t') := by
    rw [hst0]
    simp only [exec, insert, M.bind_apply, bindRef_ok, refOf, e1]
    simp only [st, ptrOf_some, Ptr.add] at e2 e3 ⊢
    have e2' : loadRef (prm A V) (.slot ⟨(ptrOf (own i)).base, (ptrOf (own i)).off + k * (prm A V).sz⟩) _ = _ := e2
    rw [e2']
    simp only [e3, M.pure_apply, hb3, ho3]
  refine ⟨_, mcall_ok hv eI, ?_⟩
  have e4 := readSlots w' g3 (st (prm A V) (rest m own i) (some w') V.cap (V.xs.length + 1) t').v
    (heapOf (rest m own i) (some w')) t' pos 1 (by simp [heapOf]) (by omega)
  have hsp : slot (prm A V) w' pos = b.map some := by rw [hs3, if_pos rfl]
  rw [Nat.one_mul, show w'.blk.sl (w'.off + pos * (prm A V).sz) (prm A V).sz = b.map some from hsp] at e4
  simp only [st, ptrOf_some, Ptr.add] at e4
  have e5 : at_ (Ty.params ⟨V.sz, V.al⟩ A) pos (st (prm A V) (rest m own i) (some w') V.cap (V.xs.length + 1) t') =
      .ok b (st (prm A V) (rest m own i) (some w') V.cap (V.xs.length + 1) t') := by
    show at_ (prm A V) pos _ = _
    simp only [at_, M.bind_apply, M.get_apply, st, ptrOf_some, Ptr.add, e4, mapM_id_map_some, M.pure_apply]
  have e6 : at_ (Ty.params ⟨V.sz, V.al⟩ A) pos ⟨(st (prm A V) (rest m own i) (some w') V.cap (V.xs.length + 1) t').v, (st (prm A V) (rest m own i) (some w') V.cap (V.xs.length + 1) t').heap, (st (prm A V) (rest m own i) (some w') V.cap (V.xs.length + 1) t').tick⟩ = _ := e5
  simp only [at', Function.update_self, e6, Function.update_idem]

/-- Defect: `v.push_back(v[k])` on a full vector reads freed memory, if making room moves the elements to another block. -/
theorem C10_defect_push_back_alias (hA : Proper A) {y : Sys} {m m1 : Mem} (hr : Reaches A y m) (i : Nat) (V : Spec.V)
    (hy : y i = some V) (k : Nat) (hc : V.cap = V.xs.length) (hk : k < V.xs.length)
    (r : Bool) (T T1 : Ty) (v v1 : Vec) (hres : at' A i (fun P => reserve P (V.xs.length + 1)) m = .ok r m1)
    (hv : m.vec i = some (T, v)) (hv1 : m1.vec i = some (T1, v1)) (hmove : v1.bgn.base ≠ v.bgn.base) :
    mcall A (.call i (.pushBack (.self k))) m = none := by
  obtain ⟨own, h⟩ := reaches_rep hA hr
  obtain ⟨hvi, hs⟩ := h.live i V hy
  have hfit := hs.fits (h0 := rest m own i) (fun w hw => MRep.rest_own i hw)
  have hst0 : (⟨vecOf (own i) V, m.heap, m.tick⟩ : St) = st (prm A V) (rest m own i) (own i) V.cap V.xs.length m.tick := by
    simp only [st, h.heapOf_rest]; rfl
  obtain ⟨q, t', e1, g, hq, _⟩ := reserve_grow hs.wf (h.bdd_rest i) hfit V.xs.length (V.xs.length + 1) m.tick hs.len (by omega)
  rw [← hst0] at e1
  obtain ⟨w, hw⟩ := hfit.null_cap (by omega)
  rw [hvi] at hv
  cases hv
  have e1' : reserve (Ty.params ⟨V.sz, V.al⟩ A) (V.xs.length + 1) ⟨vecOf (own i) V, m.heap, m.tick⟩ = _ := e1
  simp only [at', hvi, e1', Res.ok.injEq] at hres
  obtain ⟨-, rfl⟩ := hres
  simp only [Function.update_self, Option.some.injEq, Prod.mk.injEq, st] at hv1
  obtain ⟨rfl, rfl⟩ := hv1
  simp only [vecOf, hw, ptrOf_some] at hmove
  have esz := size_st hs.wf (ptrOf (own i)) V.xs.length V.cap m.heap m.tick
  have esz' : size (Ty.params ⟨V.sz, V.al⟩ A) ⟨vecOf (own i) V, m.heap, m.tick⟩ =
      .ok V.xs.length ⟨vecOf (own i) V, m.heap, m.tick⟩ := esz
  have eb := backPtr_ok (P := prm A V) (rest m own i) q (newCap V.cap (V.xs.length + 1)) V.xs.length t'
  have hgone : heapOf (rest m own i) (some q) w.base = none := by
    simp only [heapOf]
    rw [Function.update_of_ne (Ne.symm hmove)]
    exact MRep.rest_own i hw
  have ex : exec (Ty.params ⟨V.sz, V.al⟩ A) (.pushBack (.self k)) ⟨vecOf (own i) V, m.heap, m.tick⟩ = .ub := by
    have eadd : ((ptrOf (some q)).add (V.xs.length * (prm A V).sz)).add (Ty.params ⟨V.sz, V.al⟩ A).sz =
        (ptrOf (some q)).add ((V.xs.length + 1) * (prm A V).sz) := by
      simp only [Ptr.add, Ty.params, prm, Nat.add_mul, Nat.one_mul, Nat.add_assoc]
    simp only [st] at eb
    have eb' : backPtr (Ty.params ⟨V.sz, V.al⟩ A) _ = _ := eb
    simp only [exec, pushBack, M.bind_apply, bindRef, M.get_apply, emplaceBack, esz', e1', M.modify_apply, M.pure_apply, st]
    rw [eadd, eb']
    simp only [loadRef, readAt, M.load, vecOf, hw, ptrOf_some, Ptr.add, hgone]
  exact mcall_ub hvi ex

/-! ## C11 -/

theorem MRep.blocks {m : Mem} {y : Sys} {own : Nat → Option Own} (h : MRep A m y own) :
    (∀ i T v, m.vec i = some (T, v) → ∃ n, size (T.params A) ⟨v, m.heap, m.tick⟩ = .ok n ⟨v, m.heap, m.tick⟩ ∧ n ≤ v.cap) ∧
    (∀ i T v, m.vec i = some (T, v) → v.bgn = null ∧ v.cap = 0 ∨
      ∃ b, m.heap v.bgn.base = some b ∧ v.bgn.off + v.cap * T.sz ≤ b.size) ∧
    (∀ a b, m.heap a = some b → ∃ i T v, m.vec i = some (T, v) ∧ v.bgn.base = a ∧ v.bgn ≠ null ∧
      ∀ j T' v', m.vec j = some (T', v') → v'.bgn.base = a → j = i) ∧
    ((∀ i, m.vec i = none) → ∀ a, m.heap a = none) := by
  have key : ∀ i T v, m.vec i = some (T, v) → ∃ V, y i = some V ∧ T = ⟨V.sz, V.al⟩ ∧ v = vecOf (own i) V := by
    intro i T v hv
    cases hy : y i with
    | none => rw [(h.dead i hy).1] at hv; cases hv
    | some V =>
      rw [(h.live i V hy).1] at hv
      simp only [Option.some.injEq, Prod.mk.injEq] at hv
      exact ⟨V, rfl, hv.1.symm, hv.2.symm⟩
  have own_live : ∀ i w, own i = some w → ∃ V, y i = some V := by
    intro i w hw
    cases hy : y i with
    | none => rw [(h.dead i hy).2] at hw; cases hw
    | some V => exact ⟨V, rfl⟩
  have hblk : ∀ a b, m.heap a = some b → ∃ i T v, m.vec i = some (T, v) ∧ v.bgn.base = a ∧ v.bgn ≠ null ∧
        ∀ j T' v', m.vec j = some (T', v') → v'.bgn.base = a → j = i := by
    intro a b hab
    obtain ⟨i, w, hw, rfl, hb⟩ := (h.heap a b).1 hab
    obtain ⟨V, hV⟩ := own_live i w hw
    obtain ⟨hv, hs⟩ := h.live i V hV
    have hnz := (hs.good w hw).nz
    refine ⟨i, _, _, hv, by simp [vecOf, hw, ptrOf], by simp [vecOf, hw, ptrOf, null, hnz], ?_⟩
    intro j T' v' hj hbase
    obtain ⟨V', hV', rfl, rfl⟩ := key j T' v' hj
    cases ho : own j with
    | none => simp only [vecOf, ho, ptrOf, null] at hbase; exact absurd hbase.symm hnz
    | some w' =>
      simp only [vecOf, ho, ptrOf] at hbase
      exact (h.inj j i w' w ho hw hbase)
  refine ⟨?_, ?_, hblk, ?_⟩
  · intro i T v hv
    obtain ⟨V, hV, rfl, rfl⟩ := key i T v hv
    have hs := (h.live i V hV).2
    exact ⟨V.xs.length, size_st hs.wf (ptrOf (own i)) V.xs.length V.cap m.heap m.tick, hs.len⟩
  · intro i T v hv
    obtain ⟨V, hV, rfl, rfl⟩ := key i T v hv
    have hs := (h.live i V hV).2
    cases ho : own i with
    | none => exact .inl ⟨rfl, hs.cap0 ho⟩
    | some w => exact .inr ⟨w.blk, h.own_heap ho, (hs.good w ho).fits⟩
  · intro hd a
    cases ha : m.heap a with
    | none => rfl
    | some b =>
      obtain ⟨i, T, v, hv, _⟩ := hblk a b ha
      rw [hd i] at hv; cases hv

/-- **C11 (partial).** In the situation of C10 (in particular: no undefined behaviour, hence no access outside of a block,
to a freed block, and no use of an indeterminate value), the memory is in order afterwards: `size() ≤ capacity()`,
all `capacity()` elements lie inside a live block, every live block belongs to exactly one vector, and when no vector is
left then no block is.

Missing: what is missing for C10; see also `C11_defect_resize_value`. -/
theorem C11_pod_vector_memory_partial (hA : Proper A) (ops : List MOp) (rs : List Reply) (y : Sys)
    (hspec : Spec.mrun A.align A.zeroFill ops none_ = some (rs, y))
    (hsafe : MSafeRun A.align A.hasExpand A.zeroFill ops none_) :
    ∃ m, mrun A ops Mem.init = some (rs, m) ∧
      (∀ i T v, m.vec i = some (T, v) → ∃ n, size (T.params A) ⟨v, m.heap, m.tick⟩ = .ok n ⟨v, m.heap, m.tick⟩ ∧ n ≤ v.cap) ∧
      (∀ i T v, m.vec i = some (T, v) → v.bgn = null ∧ v.cap = 0 ∨
        ∃ b, m.heap v.bgn.base = some b ∧ v.bgn.off + v.cap * T.sz ≤ b.size) ∧
      (∀ a b, m.heap a = some b → ∃ i T v, m.vec i = some (T, v) ∧ v.bgn.base = a ∧ v.bgn ≠ null ∧
        ∀ j T' v', m.vec j = some (T', v') → v'.bgn.base = a → j = i) ∧
      ((∀ i, m.vec i = none) → ∀ a, m.heap a = none) := by
  obtain ⟨m, own, e, h⟩ := mrun_refines hA MRep.init hsafe hspec
  exact ⟨m, e, h.blocks⟩

/-- Defect: `resize(k, val)` on a vector of `n ≥ k > 0` elements, with no spare capacity, writes behind the end of the
block (`k` elements are written from the old end on). In particular `v.resize(v.size(), val)`, which should do nothing. -/
theorem C11_defect_resize_value (P : Params) (hP : Wf P) (ha : P.al ≤ P.A.align) (h : Heap) (n k : Nat) (a : List Byte)
    (hl : a.length = P.sz) (hk : 0 < k) (hn : k ≤ n) :
    ∃ s, call P (.resize n) (new h) = some (.done, s) ∧ call P (.resizeV k (.val a)) s = none := by
  have hal := aligned_iff.2 ha
  have hsz := hP.sz
  obtain ⟨k, rfl⟩ : ∃ j, k = j + 1 := ⟨k - 1, by omega⟩
  have hcap : ¬ n ≤ 0 := by omega
  have gnc : getNewCapacity 0 n = n := by simp [getNewCapacity]
  -- the vector after `reserve`
  have er : ∃ r, reserve P n (new h) = .ok r ⟨⟨⟨P.A.pick h 0 (n * P.sz), 0⟩, ⟨P.A.pick h 0 (n * P.sz), 0⟩, n⟩,
      Function.update h (P.A.pick h 0 (n * P.sz)) (some ⟨n * P.sz, fun _ => none⟩), 1⟩ := by
    refine ⟨decide ((⟨0, 0⟩ : Ptr).addr ≠ (⟨P.A.pick h 0 (n * P.sz), 0⟩ : Ptr).addr), ?_⟩
    by_cases hx : P.A.hasExpand = true
    · simp only [reserve, new, M.bind_apply, M.get_apply, hcap, if_false, size, null, true_and, Nat.le_refl, if_true, hx,
        aMalloc, hal, malloc, hP.nofail, Bool.false_eq_true, setBegin, setCap, setSize, M.modify_apply, M.pure_apply, Nat.sub_self, Nat.zero_div,
        Nat.zero_mul, gnc, Ptr.add, Nat.add_zero]
    · simp only [Bool.not_eq_true] at hx
      simp only [reserve, new, M.bind_apply, M.get_apply, hcap, if_false, size, null, true_and, Nat.le_refl, if_true, hx,
        hal, malloc, hP.nofail, setBegin, setCap, setSize, M.modify_apply, M.pure_apply, Nat.sub_self, Nat.zero_div,
        Nat.zero_mul, gnc, Ptr.add, Nat.add_zero, Bool.false_eq_true, aReallocBegin, realloc, gt_iff_lt, Nat.not_lt_zero]
  obtain ⟨r, er⟩ := er
  have fin : ∀ (c : Nat → Cell), call P (.resizeV (k + 1) (.val a))
      ⟨⟨⟨P.A.pick h 0 (n * P.sz), 0⟩, ⟨P.A.pick h 0 (n * P.sz), n * P.sz⟩, n⟩,
        Function.update h (P.A.pick h 0 (n * P.sz)) (some ⟨n * P.sz, c⟩), 1⟩ = none := by
    intro c
    have hover : ¬ n * P.sz + P.sz ≤ n * P.sz := by omega
    simp only [call, exec, resizeV, M.bind_apply, bindRef, M.get_apply, M.pure_apply, reserve, hn, if_true, fill, loadRef,
      writeAt, M.mem, Function.update_self, List.length_map, hl, hover, if_false]
  by_cases hz : P.A.zeroFill = true
  · have hw : 0 + (n * P.sz) ≤ n * P.sz := by omega
    have hgt : n > 0 := by omega
    refine ⟨_, ?_, fin ((⟨n * P.sz, fun _ => none⟩ : Block).wr 0 (List.replicate (n * P.sz) (some 0))).cells⟩
    simp only [call, exec, resize, M.bind_apply, er, size, true_and, Nat.le_refl, if_true, M.pure_apply, Nat.sub_self,
      Nat.zero_div, M.get_apply, hgt, hz, Nat.sub_zero, writeAt, M.mem, Function.update_self, List.length_replicate, hw, setSize,
      M.modify_apply, Ptr.add, Nat.zero_add, Function.update_idem]
    rfl
  · refine ⟨_, ?_, fin (fun _ => none)⟩
    simp only [call, exec, resize, M.bind_apply, er, size, true_and, Nat.le_refl, if_true, M.pure_apply, Nat.sub_self,
      Nat.zero_div, M.get_apply, hz, and_false, if_false, setSize, M.modify_apply, Ptr.add, Nat.zero_add, Bool.false_eq_true, M.bind_apply]

/-! ## C12 -/

/-- **C12 for `reserve`.** In every well-formed state (`Reaches.wellFormed`: in every reachable one) and whatever the allocator decides, `reserve` returns `true` exactly if
`data()` changed; if the capacity suffices then nothing happens at all. -/
theorem C12_reserve_reports {m : Mem} (hr : WellFormed A m) (i : Nat) (T : Ty) (v : Vec)
    (hv : m.vec i = some (T, v)) (n : Nat) :
    ∃ r m' v', at' A i (fun P => reserve P n) m = .ok r m' ∧ m'.vec i = some (T, v') ∧
      (r = true ↔ v'.bgn.addr ≠ v.bgn.addr) ∧ (n ≤ v.cap → r = false ∧ m' = m) := by
  obtain ⟨y, own, h⟩ := hr
  cases hy : y i with
  | none => rw [(h.dead i hy).1] at hv; cases hv
  | some V =>
    obtain ⟨hvi, hs⟩ := h.live i V hy
    rw [hvi] at hv
    cases hv
    have hst0 : (⟨vecOf (own i) V, m.heap, m.tick⟩ : St) = st (prm A V) (rest m own i) (own i) V.cap V.xs.length m.tick := by
      simp only [st, h.heapOf_rest]; rfl
    by_cases hn : n ≤ V.cap
    · have e : at' A i (fun P => reserve P n) m = .ok false m := h.at_read hy (fun P => reserve P n) (reserve_stay n _ hn)
      exact ⟨false, m, _, e, hvi, by simp, fun _ => ⟨rfl, rfl⟩⟩
    · have hfit := hs.fits (h0 := rest m own i) (fun w hw => MRep.rest_own i hw)
      obtain ⟨q, t', e1, g, hq, _⟩ := reserve_grow hs.wf (h.bdd_rest i) hfit V.xs.length n m.tick hs.len (by omega)
      rw [← hst0] at e1
      have e1' : reserve (Ty.params ⟨V.sz, V.al⟩ A) n ⟨vecOf (own i) V, m.heap, m.tick⟩ = _ := e1
      refine ⟨_, _, _, at_ok hvi e1', Function.update_self _ _ _, ?_, fun h => absurd h hn⟩
      simp only [decide_eq_true_eq, vecOf, st]
      exact ⟨Ne.symm, Ne.symm⟩

/-- **C12 for `shrink_to_fit`.** -/
theorem C12_shrink_to_fit_reports {m : Mem} (hr : WellFormed A m) (i : Nat) (T : Ty) (v : Vec)
    (hv : m.vec i = some (T, v)) :
    ∃ r m' v', at' A i shrinkToFit m = .ok r m' ∧ m'.vec i = some (T, v') ∧ (r = true ↔ v'.bgn.addr ≠ v.bgn.addr) := by
  obtain ⟨y, own, h⟩ := hr
  cases hy : y i with
  | none => rw [(h.dead i hy).1] at hv; cases hv
  | some V =>
    obtain ⟨hvi, hs⟩ := h.live i V hy
    rw [hvi] at hv
    cases hv
    have hst0 : (⟨vecOf (own i) V, m.heap, m.tick⟩ : St) = st (prm A V) (rest m own i) (own i) V.cap V.xs.length m.tick := by
      simp only [st, h.heapOf_rest]; rfl
    have hfit := hs.fits (h0 := rest m own i) (fun w hw => MRep.rest_own i hw)
    obtain ⟨o', t', e1, _⟩ := shrink_ok hs.wf (h.bdd_rest i) hfit V.xs.length m.tick hs.len
    rw [← hst0] at e1
    have e1' : shrinkToFit (Ty.params ⟨V.sz, V.al⟩ A) ⟨vecOf (own i) V, m.heap, m.tick⟩ = _ := e1
    refine ⟨_, _, _, at_ok hvi e1', Function.update_self _ _ _, ?_⟩
    simp only [decide_eq_true_eq, vecOf, st]
    exact ⟨Ne.symm, Ne.symm⟩

/-- **C12 for `resize(n)`.** -/
theorem C12_resize_reports {m : Mem} (hr : WellFormed A m) (i : Nat) (T : Ty) (v : Vec)
    (hv : m.vec i = some (T, v)) (n : Nat) :
    ∃ r m' v', at' A i (fun P => resize P n) m = .ok r m' ∧ m'.vec i = some (T, v') ∧
      (r = true ↔ v'.bgn.addr ≠ v.bgn.addr) ∧ (n ≤ v.cap → v'.bgn = v.bgn) := by
  obtain ⟨y, own, h⟩ := hr
  cases hy : y i with
  | none => rw [(h.dead i hy).1] at hv; cases hv
  | some V =>
    obtain ⟨hvi, hs⟩ := h.live i V hy
    rw [hvi] at hv
    cases hv
    have hst0 : (⟨vecOf (own i) V, m.heap, m.tick⟩ : St) = st (prm A V) (rest m own i) (own i) V.cap V.xs.length m.tick := by
      simp only [st, h.heapOf_rest]; rfl
    have hfit := hs.fits (h0 := rest m own i) (fun w hw => MRep.rest_own i hw)
    obtain ⟨o', t', e1, _, _, _, hstay⟩ := resize_ok hs.wf (h.bdd_rest i) hfit V.xs.length n m.tick hs.len
    rw [← hst0] at e1
    have e1' : resize (Ty.params ⟨V.sz, V.al⟩ A) n ⟨vecOf (own i) V, m.heap, m.tick⟩ = _ := e1
    refine ⟨_, _, _, at_ok hvi e1', Function.update_self _ _ _, ?_, fun hn => hstay hn⟩
    simp only [decide_eq_true_eq, vecOf, st]
    exact ⟨Ne.symm, Ne.symm⟩

theorem writeAt_v {p : Ptr} {l : List Cell} {s s' : St} (h : writeAt p l s = .ok () s') : s'.v = s.v := by
  simp only [writeAt, M.mem] at h
  cases hb : s.heap p.base with
  | none => simp [hb] at h
  | some b =>
    simp only [hb] at h
    by_cases hc : p.off + l.length ≤ b.size
    · simp only [hc, if_true, Res.ok.injEq, true_and] at h
      rw [← h]
    · simp only [hc, if_false] at h
      cases h

theorem loadRef_s {P : Params} {r : Ref} {l : List Cell} {s s' : St} (h : loadRef P r s = .ok l s') : s' = s := by
  cases r with
  | val a => simp only [loadRef, M.pure_apply, Res.ok.injEq] at h; exact h.2.symm
  | slot p =>
    simp only [loadRef, readAt, M.load] at h
    split at h
    · simp only [Res.ok.injEq] at h; exact h.2.symm
    · cases h

theorem fill_v {P : Params} {r : Ref} {k : Nat} {p : Ptr} {s s' : St} (h : fill P r p k s = .ok () s') : s'.v = s.v := by
  induction k generalizing p s with
  | zero => simp only [fill, M.pure_apply, Res.ok.injEq, true_and] at h; rw [h]
  | succ k ih =>
    simp only [fill, M.bind_apply] at h
    cases h1 : loadRef P r s with
    | throw e b => rw [h1] at h; cases h
    | ub => rw [h1] at h; cases h
    | ok l s1 =>
      have := loadRef_s h1
      subst this
      rw [h1] at h
      simp only at h
      cases h2 : writeAt p l s1 with
      | throw e b => rw [h2] at h; cases h
      | ub => rw [h2] at h; cases h
      | ok u s2 =>
        rw [h2] at h
        rw [ih h, writeAt_v h2]

/-- **C12 for `resize(n, val)`**: if it returns at all (see `C11_defect_resize_value`), it reports truthfully. -/
theorem C12_resize_value_reports {m m' : Mem} (hr : WellFormed A m) (i : Nat) (T : Ty) (v : Vec)
    (hv : m.vec i = some (T, v)) (n : Nat) (a : Arg (List Byte)) (r : Bool)
    (he : at' A i (fun P => resizeV P n a) m = .ok r m') :
    ∃ v', m'.vec i = some (T, v') ∧ (r = true ↔ v'.bgn.addr ≠ v.bgn.addr) := by
  obtain ⟨r1, m1, v1, e1, hv1, hrep, -⟩ := C12_reserve_reports hr i T v hv n
  simp only [at', hv] at e1 he
  have eb : ∃ x, bindRef (T.params A) a ⟨v, m.heap, m.tick⟩ = .ok x ⟨v, m.heap, m.tick⟩ := by
    cases a <;> exact ⟨_, rfl⟩
  obtain ⟨x, eb⟩ := eb
  cases h1 : reserve (T.params A) n ⟨v, m.heap, m.tick⟩ with
  | throw e b => rw [h1] at e1; cases e1
  | ub => rw [h1] at e1; cases e1
  | ok r2 s2 =>
    rw [h1] at e1
    simp only [Res.ok.injEq] at e1
    obtain ⟨rfl, rfl⟩ := e1
    simp only [Function.update_self, Option.some.injEq, Prod.mk.injEq, true_and] at hv1
    simp only [resizeV, M.bind_apply, eb, h1, M.get_apply] at he
    cases h2 : fill (T.params A) x s2.v.endp n s2 with
    | throw e b => rw [h2] at he; cases he
    | ub => rw [h2] at he; cases he
    | ok u s3 =>
      rw [h2] at he
      simp only [setSize, M.modify_apply, M.pure_apply, Res.ok.injEq] at he
      obtain ⟨rfl, rfl⟩ := he
      refine ⟨_, Function.update_self _ _ _, ?_⟩
      rw [hrep, ← hv1, fill_v h2]

/-! ## C13 -/

/-- **C13: `align_ptr` and `real_addr`.** Let a block of `k + alignof(T)` bytes start at an arbitrary address. The
pointer obtained by `align_ptr` is aligned for `T`; the bookkeeping byte before it and the `k` bytes from it on lie within
the block; and `real_addr` recovers the start of the block, also after the payload was overwritten in any way. -/
theorem C13_align_ptr_real_addr (P : Params) (h0 : 0 < P.al) (h128 : P.al ≤ 128) (hal : P.aligned = false) (base k : Nat)
    (c : Nat → Cell) (s : St) (hs : s.heap base = some ⟨k + P.al, c⟩) (hb : base ≠ 0) :
    ∃ off s', alignPtr P ⟨base, 0⟩ s = .ok ⟨base, off⟩ s' ∧ 1 ≤ off ∧ off + k ≤ k + P.al ∧ P.al ∣ base + off ∧
      ∀ (s'' : St) (b : Block), s''.heap base = some b → b.size = k + P.al →
        (∀ j, j < off → ∀ b', s'.heap base = some b' → b.cells j = b'.cells j) →
        realAddr P ⟨base, off⟩ s'' = .ok ⟨base, 0⟩ s'' := by
  have hm : base % P.al < P.al := Nat.mod_lt _ h0
  refine ⟨P.al - base % P.al, ⟨s.v, Function.update s.heap base (some ((⟨k + P.al, c⟩ : Block).wr (P.al - base % P.al - 1)
    [some (BitVec.ofNat 8 (P.al - base % P.al))])), s.tick⟩, ?_, by omega, by omega, ?_, ?_⟩
  · have hw := writeAt_ok ⟨base, 0, ⟨k + P.al, c⟩⟩ s.v s.heap s.tick (P.al - base % P.al - 1)
      [some (BitVec.ofNat 8 (P.al - base % P.al))] hs (by simp; omega)
    have hw' : writeAt ⟨base, P.al - base % P.al - 1⟩ [some (BitVec.ofNat 8 (P.al - base % P.al))] s = _ := hw
    have hnn : (⟨base, 0⟩ : Ptr) ≠ null := by simp [null, hb]
    simp only [alignPtr, hnn, if_false, M.bind_apply, Ptr.addr, Nat.add_zero, Nat.zero_add, hw', M.pure_apply, Ptr.add]
  · refine ⟨base / P.al + 1, ?_⟩
    have h1 := Nat.div_add_mod base P.al
    rw [Nat.mul_add]
    omega
  · intro s'' b hb' hsz hj
    have hc := hj (P.al - base % P.al - 1) (by omega) _ (Function.update_self _ _ _)
    have hc' : b.cells (P.al - base % P.al - 1) = some (BitVec.ofNat 8 (P.al - base % P.al)) := by
      rw [hc]; simp [Block.wr]; intro; omega
    have hn : (⟨base, P.al - base % P.al⟩ : Ptr) ≠ null := by simp [null, hb]
    have ho : ¬ P.al - base % P.al = 0 := by omega
    have hr : P.al - base % P.al - 1 + 1 ≤ b.size := by omega
    have ht : (BitVec.ofNat 8 (P.al - base % P.al)).toNat = P.al - base % P.al := by
      simp only [BitVec.toNat_ofNat]; omega
    simp only [realAddr, hal, Bool.false_eq_true, if_false, hn, ho, M.bind_apply, readAt, M.load, hb', hr, if_true, Block.sl]
    simp [hc', ht]

/-- **C13 (partial): alignment and recovery of the address, in every reachable state.** `data()` is aligned for the element
type, and `real_addr` gives the start of the block that `data()` points into, which is what `free`, `expand` need.
(Partial: `recast_take_from` is restricted as in C10, see `C13_defect_recast_misaligned`.) -/
theorem C13_data_aligned_partial (hA : Proper A) {y : Sys} {m : Mem} (hr : Reaches A y m) (i : Nat) (T : Ty) (v : Vec)
    (hv : m.vec i = some (T, v)) :
    T.al ∣ v.bgn.addr ∧
      (v.bgn ≠ null → (m.heap v.bgn.base).isSome = true ∧
        realAddr (T.params A) v.bgn ⟨v, m.heap, m.tick⟩ = .ok ⟨v.bgn.base, 0⟩ ⟨v, m.heap, m.tick⟩) := by
  obtain ⟨own, h⟩ := reaches_rep hA hr
  cases hy : y i with
  | none => rw [(h.dead i hy).1] at hv; cases hv
  | some V =>
    obtain ⟨hvi, hs⟩ := h.live i V hy
    rw [hvi] at hv
    cases hv
    cases ho : own i with
    | none => exact ⟨by simp [vecOf, ptrOf, null, Ptr.addr], fun hn => absurd rfl hn⟩
    | some w =>
      have hw := h.own_heap ho
      have g := hs.good w ho
      refine ⟨g.addr, fun _ => ⟨?_, realAddr_ok g _ _ _ hw⟩⟩
      show (m.heap w.base).isSome = true
      rw [hw]; rfl

/-- Defect: `recast_take_from` between over-aligned types takes the buffer as it is; if it is not aligned for the new type,
then `data()` is not. (The precondition checked by the code is only that both types are over-aligned, or none is.) -/
theorem C13_defect_recast_misaligned (hA : Proper A) {y : Sys} {m : Mem} (hr : Reaches A y m) (i j : Nat) (hij : i ≠ j)
    (V W : Spec.V) (hi : y i = some V) (hj : y j = some W) (hV : ¬ V.al ≤ A.align) (hW : ¬ W.al ≤ A.align)
    (T : Ty) (v : Vec) (hv : m.vec j = some (T, v)) (hmis : ¬ V.al ∣ v.bgn.addr) :
    ∃ m' v', mcall A (.recastTake i j) m = some (.done, m') ∧ m'.vec i = some (⟨V.sz, V.al⟩, v') ∧ ¬ V.al ∣ v'.bgn.addr := by
  obtain ⟨own, h⟩ := reaches_rep hA hr
  obtain ⟨hvi, hsi⟩ := h.live i V hi
  obtain ⟨hvj, hsj⟩ := h.live j W hj
  rw [hvj] at hv
  cases hv
  obtain ⟨m1, e1, hv1, ht1, h1⟩ := h.kill hi
  have hj1 : m1.vec j = some (⟨W.sz, W.al⟩, vecOf (own j) W) := by rw [hv1]; exact hvj
  have hi1 : m1.vec i = some (⟨V.sz, V.al⟩, vecOf (own i) V) := by rw [hv1]; exact hvi
  have hal : ¬ ((Ty.params ⟨V.sz, V.al⟩ A).aligned ≠ (Ty.params ⟨W.sz, W.al⟩ A).aligned) := by
    simp only [Ty.params, Params.aligned]
    simp [hV, hW]
  refine ⟨⟨Function.update (Function.update m1.vec i
      (some (⟨V.sz, V.al⟩, ⟨ptrOf (own j), (ptrOf (own j)).add (W.xs.length * W.sz / V.sz * V.sz), W.sz * W.cap / V.sz⟩))) j
      (some (⟨W.sz, W.al⟩, ⟨null, null, 0⟩)), m1.heap, m1.tick⟩,
    ⟨ptrOf (own j), (ptrOf (own j)).add (W.xs.length * W.sz / V.sz * V.sz), W.sz * W.cap / V.sz⟩, ?_, ?_, hmis⟩
  · simp only [mcall, mexec, recastTake, M.bind_apply, e1, tyOf, M.load, hi1, hj1, Option.map_some,
      size_read' hj1 hsj.wf, hal, if_false, M.mem]
    rfl
  · simp only
    rw [Function.update_of_ne hij, Function.update_self]

/-- Defect: with an allocator that has `expand`, a vector of over-aligned elements that has taken over the buffer of a
vector with a bigger alignment asks `expand` for too few bytes (the payload starts at an offset greater than the new
alignment): afterwards the capacity exceeds the block. -/
theorem C13_defect_recast_expand (hA : Proper A) (hx : A.hasExpand = true) (hex : ∀ t, A.expands t = true) {y : Sys} {m : Mem}
    (hr : Reaches A y m) (i j : Nat) (hij : i ≠ j) (V W : Spec.V) (hi : y i = some V) (hj : y j = some W)
    (hV : ¬ V.al ≤ A.align) (hW : ¬ W.al ≤ A.align) (T : Ty) (v : Vec) (hv : m.vec j = some (T, v))
    (hoff : V.al < v.bgn.off) (n : Nat) (hn : W.sz * W.cap / V.sz < n) :
    ∃ m1 m2 v2 b, mcall A (.recastTake i j) m = some (.done, m1) ∧ mcall A (.call i (.reserve n)) m1 = some (.done, m2) ∧
      m2.vec i = some (⟨V.sz, V.al⟩, v2) ∧ m2.heap v2.bgn.base = some b ∧ b.size < v2.bgn.off + v2.cap * V.sz := by
  obtain ⟨own, h⟩ := reaches_rep hA hr
  obtain ⟨hvi, hsi⟩ := h.live i V hi
  obtain ⟨hvj, hsj⟩ := h.live j W hj
  rw [hvj] at hv
  cases hv
  obtain ⟨w, hw⟩ : ∃ w, own j = some w := by
    cases ho : own j with
    | none => simp [vecOf, ho, ptrOf, null] at hoff
    | some w => exact ⟨w, rfl⟩
  obtain ⟨m1, e1, hv1, ht1, h1⟩ := h.kill hi
  have hj1 : m1.vec j = some (⟨W.sz, W.al⟩, vecOf (own j) W) := by rw [hv1]; exact hvj
  have hi1 : m1.vec i = some (⟨V.sz, V.al⟩, vecOf (own i) V) := by rw [hv1]; exact hvi
  have hal : ¬ ((Ty.params ⟨V.sz, V.al⟩ A).aligned ≠ (Ty.params ⟨W.sz, W.al⟩ A).aligned) := by
    simp only [Ty.params, Params.aligned]
    simp [hV, hW]
  have hblk : m1.heap w.base = some w.blk :=
    (h1.heap _ _).2 ⟨j, w, by rw [Function.update_of_ne hij.symm]; exact hw, rfl, rfl⟩
  have g := hsj.good w hw
  have eR : mcall A (.recastTake i j) m = some (.done, ⟨Function.update (Function.update m1.vec i
      (some (⟨V.sz, V.al⟩, ⟨ptrOf (own j), (ptrOf (own j)).add (W.xs.length * W.sz / V.sz * V.sz), W.sz * W.cap / V.sz⟩))) j
      (some (⟨W.sz, W.al⟩, ⟨null, null, 0⟩)), m1.heap, m1.tick⟩) := by
    simp only [mcall, mexec, recastTake, M.bind_apply, e1, tyOf, M.load, hi1, hj1, Option.map_some,
      size_read' hj1 hsj.wf, hal, if_false, M.mem]
    rfl
  refine ⟨_, _, _, _, eR, mcall_ok (T := ⟨V.sz, V.al⟩) (v := ⟨⟨w.base, w.off⟩,
      (⟨w.base, w.off⟩ : Ptr).add (W.xs.length * W.sz / V.sz * V.sz), W.sz * W.cap / V.sz⟩)
      (s := ⟨⟨⟨w.base, w.off⟩, (⟨w.base, w.off⟩ : Ptr).add (W.xs.length * W.sz / V.sz * V.sz), newCap (W.sz * W.cap / V.sz) n⟩,
        Function.update m1.heap w.base (some (w.blk.resize (newCap (W.sz * W.cap / V.sz) n * V.sz + V.al))), m1.tick + 1⟩) ?_ ?_,
      Function.update_self _ _ _, Function.update_self _ _ _, ?_⟩
  · simp only
    rw [Function.update_of_ne hij, Function.update_self, hw]
    rfl
  · have hc : ¬ n ≤ W.sz * W.cap / V.sz := by omega
    have esz := size_st (P := ⟨V.sz, V.al, A⟩) hsi.wf ⟨w.base, w.off⟩ (W.xs.length * W.sz / V.sz) (W.sz * W.cap / V.sz)
      m1.heap m1.tick
    have hnn := ptr_ne_null g
    have haV : (⟨V.sz, V.al, A⟩ : Params).aligned = false := by simp [Params.aligned, hV]
    have haW : (prm A W).aligned = false := by simp [prm, Params.aligned, hW]
    have hra : realAddr ⟨V.sz, V.al, A⟩ ⟨w.base, w.off⟩ = realAddr (prm A W) ⟨w.base, w.off⟩ := by
      simp only [realAddr, haV, haW]
    have era := realAddr_ok g ⟨⟨w.base, w.off⟩, (⟨w.base, w.off⟩ : Ptr).add (W.xs.length * W.sz / V.sz * V.sz),
      W.sz * W.cap / V.sz⟩ m1.heap m1.tick hblk
    simp only [exec, reserve, M.bind_apply, M.get_apply, hc, if_false, Ty.params, esz, hx, if_true, hnn, aExpandBegin, haV,
      Bool.false_eq_true, hra, era, expand, hblk, hex, setCap, M.modify_apply, M.pure_apply, setSize,
      getNewCapacity_eq (show W.sz * W.cap / V.sz < n by omega)]
  · simp only [Block.resize]
    simp only [vecOf, hw, ptrOf_some] at hoff
    omega

/-- the defect occurs: a buffer for elements of alignment 32 that starts at address 32 is given to a vector of elements of
alignment 64 -/
example : ∃ m y V W T v, Reaches (anAlloc true true) y m ∧ y 1 = some V ∧ y 0 = some W ∧
    ¬ V.al ≤ (anAlloc true true).align ∧ ¬ W.al ≤ (anAlloc true true).align ∧ m.vec 0 = some (T, v) ∧ ¬ V.al ∣ v.bgn.addr := by
  have hA := anAlloc_proper true true
  have hs : MSafeRun 16 true true [.ctor 0 32 32, .ctor 1 64 64, .call 0 (.reserve 1)] none_ :=
    ⟨⟨by omega, by omega, 5, rfl⟩, fun _ _ h1 => ⟨⟨by omega, by omega, 6, rfl⟩, fun _ _ h2 => ⟨fun _ _ => trivial, fun _ _ _ => trivial⟩⟩⟩
  have e : (mrun (anAlloc true true) [.ctor 0 32 32, .ctor 1 64 64, .call 0 (.reserve 1)] Mem.init).map (fun p => p.2.vec 0) =
      some (some (⟨32, 32⟩, ⟨⟨16, 16⟩, ⟨16, 16⟩, 1⟩)) := by
    simp [mrun, mcall, mexec, construct, M.mem, Mem.init, at', exec, reserve, size, null, anAlloc, aMalloc, Params.aligned,
      malloc, alignPtr, Ty.params, Ptr.addr, Ptr.add, writeAt, M.mem, setBegin, setCap, setSize, getNewCapacity]
  obtain ⟨m, e1, -⟩ := C10_pod_vector_sequence_partial hA [.ctor 0 32 32, .ctor 1 64 64, .call 0 (.reserve 1)] _ _ rfl hs
  rw [e1] at e
  simp only [Option.map_some, Option.some.injEq] at e
  exact ⟨m, _, ⟨64, 64, 0, []⟩, ⟨32, 32, 1, []⟩, ⟨32, 32⟩, _, ⟨_, _, rfl, hs, e1⟩, rfl, rfl, by decide, by decide, e, by decide⟩

/-! ## C14 -/

theorem flat_known (sz : Nat) (ws : List (List Byte)) : (ws.map some).flatMap (E.bytes sz) = ws.flatten.map some := by
  induction ws with
  | nil => rfl
  | cons w ws ih =>
    simp only [List.map_cons, List.flatMap_cons, ih, List.flatten_cons, List.map_append]
    rfl

/-- contents of which all bytes are known, cut into elements of another size -/
theorem recast_known {W : Spec.V} {ws : List (List Byte)} (hx : W.xs = ws.map some) (sz : Nat) :
    recast W sz = ((List.range (ws.flatten.length / sz)).map (slotOf sz ws.flatten)).map some := by
  simp only [recast, hx, flat_known, chunks, List.length_map, List.map_map]
  apply List.map_congr_left
  intro k _
  simp only [Function.comp, slotOf, ← List.map_drop, ← List.map_take, mapM_id_map_some]

theorem slots_flatten (sz n : Nat) (l : List Byte) : ((List.range n).map (slotOf sz l)).flatten = l.take (n * sz) := by
  induction n with
  | zero => simp
  | succ n ih =>
    rw [List.range_succ, List.map_append, List.flatten_append, ih, Nat.add_mul, Nat.one_mul, List.take_add]
    simp [slotOf]

theorem slots_length {sz : Nat} {l u : List Byte}
    (hu : u ∈ (List.range (l.length / sz)).map (slotOf sz l)) : u.length = sz := by
  rw [List.mem_map] at hu
  obtain ⟨k, hk, rfl⟩ := hu
  rw [List.mem_range] at hk
  have h1 : (k + 1) * sz ≤ l.length / sz * sz := Nat.mul_le_mul_right _ hk
  have h2 := Nat.div_mul_le_self l.length sz
  rw [Nat.add_mul] at h1
  simp only [slotOf, List.length_take, List.length_drop]
  omega

/-- cutting a string of elements into elements -/
theorem slots_of_flatten {sz : Nat} (hsz : 0 < sz) (ws : List (List Byte)) (hl : ∀ w ∈ ws, w.length = sz) :
    (List.range (ws.flatten.length / sz)).map (slotOf sz ws.flatten) = ws := by
  have hlen : ws.flatten.length = ws.length * sz := by
    have := length_flatten_of ws sz hl
    rwa [List.length_map] at this
  rw [hlen, Nat.mul_div_cancel _ hsz]
  apply List.ext_getElem?
  intro k
  rw [List.getElem?_map]
  by_cases hk : k < ws.length
  · rw [List.getElem?_range hk, List.getElem?_eq_getElem hk]
    have h1 := slotOf_flatten ws sz hl k ws[k] (List.getElem?_eq_getElem hk)
    simp only [slotOf, ← List.map_drop, ← List.map_take] at h1
    simp only [Option.map_some, Option.some.injEq]
    exact (List.map_inj_right (fun a b h => Option.some.inj h)).1 h1
  · rw [List.getElem?_eq_none (by simpa using hk), List.getElem?_eq_none (by omega)]
    rfl

theorem elems_known {m : Mem} {y : Sys} {own : Nat → Option Own} (h : MRep A m y own) {i : Nat} {V : Spec.V}
    (hi : y i = some V) {us : List (List Byte)} (hx : V.xs = us.map some) :
    at' A i size m = .ok us.length m ∧ ∀ k (hk : k < us.length), at' A i (fun P => at_ P k) m = .ok us[k] m := by
  refine ⟨by have := h.size_read hi; rw [hx] at this; simpa using this, fun k hk => h.at_elem hi ?_⟩
  rw [hx, List.getElem?_map, List.getElem?_eq_getElem hk]
  rfl

theorem known_lengths {m : Mem} {y : Sys} {own : Nat → Option Own} (h : MRep A m y own) {i : Nat} {V : Spec.V}
    (hi : y i = some V) {us : List (List Byte)} (hx : V.xs = us.map some) : ∀ u ∈ us, u.length = V.sz := by
  intro u hu
  refine (h.live i V hi).2.lengths (some u) ?_ u rfl
  rw [hx]
  exact List.mem_map.2 ⟨u, hu, rfl⟩

theorem mstep_recastCopy {al : Nat} {z : Bool} {y : Sys} {i j : Nat} {V W : Spec.V} (hi : y i = some V) (hj : y j = some W)
    (hij : i ≠ j) : mstep al z (.recastCopy i j) y =
      some (.done, y.put i (some { V with cap := newCap V.cap (recast W V.sz).length, xs := recast W V.sz })) := by
  simp only [mstep, hi, hj, Option.bind_eq_bind, Option.bind_some, hij, if_false]

theorem mstep_recastTake {al : Nat} {z : Bool} {y : Sys} {i j : Nat} {V W : Spec.V} (hi : y i = some V) (hj : y j = some W)
    (hd : ¬ (i = j ∨ decide (V.al ≤ al) ≠ decide (W.al ≤ al))) : mstep al z (.recastTake i j) y =
      some (.done, (y.put i (some { V with cap := W.sz * W.cap / V.sz, xs := recast W V.sz })).put j
        (some { W with cap := 0, xs := [] })) := by
  simp only [mstep, hi, hj, Option.bind_eq_bind, Option.bind_some, hd, if_false]

/-- **C14: `recast_copy_from`.** The copy's elements are, byte by byte, the longest prefix of the source's bytes that
consists of whole elements; the source is not changed. -/
theorem C14_recast_copy (hA : Proper A) {y : Sys} {m : Mem} (hr : Reaches A y m) (i j : Nat) (hij : i ≠ j) (V W : Spec.V)
    (hi : y i = some V) (hj : y j = some W) (ws : List (List Byte)) (hx : W.xs = ws.map some) :
    ∃ (m' : Mem) (us : List (List Byte)), mcall A (.recastCopy i j) m = some (.done, m') ∧ us.flatten = ws.flatten.take (ws.flatten.length / V.sz * V.sz) ∧
      (∀ u ∈ us, u.length = V.sz) ∧
      at' A i size m' = .ok us.length m' ∧ (∀ k (hk : k < us.length), at' A i (fun P => at_ P k) m' = .ok us[k] m') ∧
      at' A j size m' = .ok ws.length m' ∧ (∀ k (hk : k < ws.length), at' A j (fun P => at_ P k) m' = .ok ws[k] m') := by
  obtain ⟨own, h⟩ := reaches_rep hA hr
  obtain ⟨m', own', e, h'⟩ := mcall_refines hA h (op := .recastCopy i j) trivial
    (mstep_recastCopy hi hj hij)
  have hI := elems_known h' (put_self _ _ _) (recast_known hx V.sz)
  have hJ := elems_known h' (i := j) (by rw [put_ne _ hij.symm]; exact hj) hx
  exact ⟨m', _, e, slots_flatten _ _ _, fun u hu => slots_length hu, hI.1, hI.2, hJ.1, hJ.2⟩

/-- the buffer after `recast_take_from` -/
theorem recastTake_block {y : Sys} {m m' : Mem} {own : Nat → Option Own} (h : MRep A m y own) {i j : Nat} (hij : i ≠ j)
    {V W : Spec.V} (hi : y i = some V) (hj : y j = some W) {r : Reply} (e : mcall A (.recastTake i j) m = some (r, m'))
    {T : Ty} {v : Vec} (hv : m.vec j = some (T, v)) :
    (∃ T' v', m'.vec i = some (T', v') ∧ v'.bgn = v.bgn) ∧ m'.vec j = some (T, ⟨null, null, 0⟩) := by
  obtain ⟨hvi, hsi⟩ := h.live i V hi
  obtain ⟨hvj, hsj⟩ := h.live j W hj
  rw [hvj] at hv
  cases hv
  obtain ⟨m1, e1, hv1, ht1, h1⟩ := h.kill hi
  have hj1 : m1.vec j = some (⟨W.sz, W.al⟩, vecOf (own j) W) := by rw [hv1]; exact hvj
  have hi1 : m1.vec i = some (⟨V.sz, V.al⟩, vecOf (own i) V) := by rw [hv1]; exact hvi
  by_cases hal : (Ty.params ⟨V.sz, V.al⟩ A).aligned ≠ (Ty.params ⟨W.sz, W.al⟩ A).aligned
  · simp only [mcall, mexec, recastTake, M.bind_apply, e1, tyOf, M.load, hi1, hj1, Option.map_some,
      size_read' hj1 hsj.wf, M.undef_apply] at e
    rw [if_pos hal] at e
    cases e
  · simp only [mcall, mexec, recastTake, M.bind_apply, e1, tyOf, M.load, hi1, hj1, Option.map_some,
      size_read' hj1 hsj.wf, hal, if_false, M.mem, M.pure_apply, Option.some.injEq, Prod.mk.injEq] at e
    obtain ⟨-, rfl⟩ := e
    simp only
    rw [Function.update_of_ne hij, Function.update_self, Function.update_self]
    exact ⟨⟨_, _, rfl, rfl⟩, rfl⟩

/-- **C14 (partial): `recast_take_from`.** The elements are, byte by byte, the longest prefix of the source's bytes that
consists of whole elements; the block is taken over as it is; the source is left empty. (Partial: alignments are
restricted as in C10, see `C13_defect_recast_misaligned`.) -/
theorem C14_recast_take_partial (hA : Proper A) {y : Sys} {m : Mem} (hr : Reaches A y m) (i j : Nat) (hij : i ≠ j)
    (V W : Spec.V) (hi : y i = some V) (hj : y j = some W) (ws : List (List Byte)) (hx : W.xs = ws.map some)
    (hal : V.al ≤ A.align ∧ W.al ≤ A.align ∨ V.al = W.al) (T : Ty) (v : Vec) (hv : m.vec j = some (T, v)) :
    ∃ (m' : Mem) (us : List (List Byte)), mcall A (.recastTake i j) m = some (.done, m') ∧ us.flatten = ws.flatten.take (ws.flatten.length / V.sz * V.sz) ∧
      (∀ u ∈ us, u.length = V.sz) ∧
      at' A i size m' = .ok us.length m' ∧ (∀ k (hk : k < us.length), at' A i (fun P => at_ P k) m' = .ok us[k] m') ∧
      (∃ T' v', m'.vec i = some (T', v') ∧ v'.bgn = v.bgn) ∧
      at' A j size m' = .ok 0 m' ∧ ∃ v', m'.vec j = some (T, v') ∧ v'.bgn = null ∧ v'.cap = 0 := by
  obtain ⟨own, h⟩ := reaches_rep hA hr
  have hd : ¬ (i = j ∨ decide (V.al ≤ A.align) ≠ decide (W.al ≤ A.align)) := by
    rw [not_or]
    refine ⟨hij, ?_⟩
    rcases hal with ⟨h1, h2⟩ | h1
    · simp [h1, h2]
    · simp [h1]
  obtain ⟨m', own', e, h'⟩ := mcall_refines hA h (op := .recastTake i j)
    (by
      intro v w hv hw
      rw [hi] at hv; rw [hj] at hw
      cases hv; cases hw
      rcases hal with ⟨h1, h2⟩ | h1
      · exact .inl h1
      · exact .inr (.inl h1))
    (mstep_recastTake hi hj hd)
  have hI := elems_known h' (i := i) (by rw [put_ne _ hij, put_self]) (recast_known hx V.sz)
  have hJ := elems_known h' (i := j) (us := []) (put_self _ _ _) rfl
  obtain ⟨hb, hb'⟩ := recastTake_block h hij hi hj e hv
  exact ⟨m', _, e, slots_flatten _ _ _, fun u hu => slots_length hu, hI.1, hI.2, hb, hJ.1, _, hb', rfl, rfl⟩

/-- **C14: round trip.** If the bytes of the source are a whole number of the new elements, then recasting to the new type
and back gives the old contents. -/
theorem C14_recast_round_trip (hA : Proper A) {y : Sys} {m : Mem} (hr : Reaches A y m) (i j : Nat) (hij : i ≠ j)
    (V W : Spec.V) (hi : y i = some V) (hj : y j = some W) (ws : List (List Byte)) (hx : W.xs = ws.map some)
    (hal : V.al ≤ A.align ∧ W.al ≤ A.align ∨ V.al = W.al) (hdiv : V.sz ∣ ws.length * W.sz) :
    ∃ m' m'', mcall A (.recastTake i j) m = some (.done, m') ∧ mcall A (.recastTake j i) m' = some (.done, m'') ∧
      at' A j size m'' = .ok ws.length m'' ∧ (∀ k (hk : k < ws.length), at' A j (fun P => at_ P k) m'' = .ok ws[k] m'') := by
  obtain ⟨own, h⟩ := reaches_rep hA hr
  have hd : decide (V.al ≤ A.align) = decide (W.al ≤ A.align) := by
    rcases hal with ⟨h1, h2⟩ | h1
    · simp [h1, h2]
    · simp [h1]
  have hd1 : ¬ (i = j ∨ decide (V.al ≤ A.align) ≠ decide (W.al ≤ A.align)) := by
    rw [not_or]; exact ⟨hij, not_not.2 hd⟩
  have hd2 : ¬ (j = i ∨ decide (W.al ≤ A.align) ≠ decide (V.al ≤ A.align)) := by
    rw [not_or]; exact ⟨hij.symm, not_not.2 hd.symm⟩
  obtain ⟨m', own', e, h'⟩ := mcall_refines hA h (op := .recastTake i j)
    (by
      intro v w hv hw
      rw [hi] at hv; rw [hj] at hw
      cases hv; cases hw
      rcases hal with ⟨h1, h2⟩ | h1
      · exact .inl h1
      · exact .inr (.inl h1))
    (mstep_recastTake hi hj hd1)
  have hi' : ((y.put i (some { V with cap := W.sz * W.cap / V.sz, xs := recast W V.sz })).put j
        (some { W with cap := 0, xs := [] })) i = some { V with cap := W.sz * W.cap / V.sz, xs := recast W V.sz } := by
    rw [put_ne _ hij, put_self]
  have hj' := put_self (y.put i (some { V with cap := W.sz * W.cap / V.sz, xs := recast W V.sz })) j
        (some { W with cap := 0, xs := [] })
  obtain ⟨m'', own'', e2, h''⟩ := mcall_refines hA h' (op := .recastTake j i)
    (by
      intro v w hv hw
      rw [hj'] at hv; rw [hi'] at hw
      cases hv; cases hw
      rcases hal with ⟨h1, h2⟩ | h1
      · exact .inl h2
      · exact .inr (.inl h1.symm))
    (mstep_recastTake hj' hi' hd2)
  refine ⟨m', m'', e, e2, ?_⟩
  refine elems_known h'' (i := j) (by rw [put_ne _ hij.symm, put_self]) ?_
  have hl := known_lengths h hj hx
  have hlen : ws.flatten.length = ws.length * W.sz := by
    have := length_flatten_of ws W.sz hl
    rwa [List.length_map] at this
  simp only
  rw [recast_known (W := { V with cap := W.sz * W.cap / V.sz, xs := recast W V.sz }) (recast_known hx V.sz),
    slots_flatten, hlen, Nat.div_mul_cancel hdiv, ← hlen, List.take_length,
    slots_of_flatten (sz := W.sz) (h.live j W hj).2.wf.sz ws hl]

/-- Recasting a vector from itself leaves it empty. -/
theorem C14_defect_self_recast (hA : Proper A) {y : Sys} {m : Mem} (hr : Reaches A y m) (i : Nat) (V : Spec.V)
    (hi : y i = some V) : ∃ m', mcall A (.recastCopy i i) m = some (.done, m') ∧ at' A i size m' = .ok 0 m' := by
  obtain ⟨own, h⟩ := reaches_rep hA hr
  obtain ⟨s1, ec, hr1⟩ := call_refines (P := prm A V) (op := .clear) (h.live i V hi).2.wf (h.bdd_rest i) (h.focus hi)
    trivial rfl
  have ec' : clear (prm A V) ⟨vecOf (own i) V, m.heap, m.tick⟩ = .ok () s1 := by
    simp only [call, exec, M.bind_apply, clear, setSize, M.modify_apply, M.pure_apply, Option.some.injEq,
      Prod.mk.injEq, true_and] at ec
    simp only [clear, setSize, M.modify_apply, ec]
  obtain ⟨m1, own1, e1, h1, ho1⟩ := h.at_change hi clear ec' hr1
  have hi1 := put_self y i (some { V with cap := V.cap, xs := [] })
  have hb := h1.bytes_read hi1
  have hb' : bytesOf (own1 i) (0 * V.sz) = [] := by
    cases own1 i <;> simp [bytesOf]
  obtain ⟨m2, own2, e3, h2⟩ := at_assignCopy h1 hi1 (n := 0) (l := []) (ys := []) (by simp) rfl (by simp)
  refine ⟨m2, ?_, h2.size_read (put_self _ _ _)⟩
  have e4 : at' A i (fun P => assignCopy P (0 * V.sz / P.sz) (([] : List Cell).take (0 * V.sz / P.sz * P.sz))) m1 = .ok () m2 := by
    rw [← e3]
    simp
  simp only [mcall, mexec, recastCopy, M.bind_apply, e1, tyOf_ok h1 hi1, h1.size_read hi1, hb, List.length_nil, hb', e4,
    M.pure_apply]

/-! ## C48 -/

theorem flatten_inj {sz : Nat} {us ws : List (List Byte)} (hu : ∀ u ∈ us, u.length = sz) (hw : ∀ w ∈ ws, w.length = sz)
    (hl : us.length = ws.length) (h : us.flatten = ws.flatten) : us = ws := by
  induction us generalizing ws with
  | nil => cases ws with
    | nil => rfl
    | cons w ws => simp at hl
  | cons u us ih => cases ws with
    | nil => simp at hl
    | cons w ws =>
      simp only [List.flatten_cons] at h
      have h1 := hu u (by simp)
      have h2 := hw w (by simp)
      obtain ⟨rfl, h'⟩ := List.append_inj h (by omega)
      rw [ih (fun x hx => hu x (by simp [hx])) (fun x hx => hw x (by simp [hx])) (by simpa using hl) h']

theorem read_known {m : Mem} {y : Sys} {own : Nat → Option Own} (h : MRep A m y own) {i : Nat} {V : Spec.V}
    (hi : y i = some V) {us : List (List Byte)} (hx : V.xs = us.map some) (h0 : us.length ≠ 0) :
    readAt (vecOf (own i) V).bgn (us.length * V.sz) ⟨vecOf (own i) V, m.heap, m.tick⟩ =
      .ok (us.flatten.map some) ⟨vecOf (own i) V, m.heap, m.tick⟩ := by
  obtain ⟨hv, hs⟩ := h.live i V hi
  have hlen : V.xs.length = us.length := by rw [hx]; simp
  cases ho : own i with
  | none => have := hs.cap0 ho; have := hs.len; omega
  | some w =>
    have e := readSlots w (hs.good w ho) (vecOf (some w) V) m.heap m.tick 0 us.length (h.own_heap ho)
      (by have := hs.len; omega)
    have hb := hs.below
    rw [hx, flat_known, ← hx, hlen, ho] at hb
    have hsz : us.length * V.sz ≠ 0 := Nat.mul_ne_zero h0 (Nat.pos_iff_ne_zero.1 hs.wf.sz)
    simp only [bytesOf, hsz, if_false] at hb
    have : w.blk.sl w.off (us.length * V.sz) = us.flatten.map some := by
      apply List.ext_getElem?
      intro k
      by_cases hk : k < (us.flatten.map some : List Cell).length
      · have h1 : (us.flatten.map some : List Cell)[k]? = some (some (us.flatten[k]'(by rwa [List.length_map] at hk))) := by
          rw [List.getElem?_map, List.getElem?_eq_getElem (by rwa [List.length_map] at hk)]; rfl
        rw [h1, hb.2 k _ h1]
      · rw [List.getElem?_eq_none (by rw [← hb.1]; omega), List.getElem?_eq_none (by omega)]
    simp only [Nat.zero_mul, Nat.add_zero, prm] at e
    simp only [vecOf, ptrOf_some] at e ⊢
    rw [e, this]

/-- **C48 for `pod_vector`.** For two vectors of the same type whose elements are all known, `operator==` is true iff the
contents are the same, and `operator!=` is its negation. -/
theorem C48_pod_vector_eq (hA : Proper A) {y : Sys} {m : Mem} (hr : Reaches A y m) (i j : Nat) (V W : Spec.V)
    (hi : y i = some V) (hj : y j = some W) (hsz : W.sz = V.sz) (us ws : List (List Byte)) (hu : V.xs = us.map some)
    (hw : W.xs = ws.map some) (T T' : Ty) (v v' : Vec) (hv : m.vec i = some (T, v)) (hv' : m.vec j = some (T', v')) :
    eq (T.params A) ⟨v, m.heap, m.tick⟩ ⟨v', m.heap, m.tick⟩ = some (decide (us = ws)) ∧
      ne (T.params A) ⟨v, m.heap, m.tick⟩ ⟨v', m.heap, m.tick⟩ = some (decide (us ≠ ws)) := by
  obtain ⟨own, h⟩ := reaches_rep hA hr
  obtain ⟨hvi, hsi⟩ := h.live i V hi
  obtain ⟨hvj, hsj⟩ := h.live j W hj
  rw [hvi] at hv
  rw [hvj] at hv'
  cases hv; cases hv'
  have hlu : V.xs.length = us.length := by rw [hu]; simp
  have hlw : W.xs.length = ws.length := by rw [hw]; simp
  have s1 : size (Ty.params ⟨V.sz, V.al⟩ A) ⟨vecOf (own i) V, m.heap, m.tick⟩ = .ok us.length ⟨vecOf (own i) V, m.heap, m.tick⟩ := by
    rw [← hlu]; exact size_st hsi.wf (ptrOf (own i)) V.xs.length V.cap m.heap m.tick
  have s2 : size (Ty.params ⟨V.sz, V.al⟩ A) ⟨vecOf (own j) W, m.heap, m.tick⟩ = .ok ws.length ⟨vecOf (own j) W, m.heap, m.tick⟩ := by
    rw [← hlw]
    have := size_st (P := ⟨V.sz, V.al, A⟩) hsi.wf (ptrOf (own j)) W.xs.length W.cap m.heap m.tick
    simp only [vecOf, hsz]; exact this
  have hku := known_lengths h hi hu
  have hkw := known_lengths h hj hw
  rw [hsz] at hkw
  by_cases hl : us.length = ws.length
  · by_cases h0 : us.length = 0
    · have e1 : us = [] := List.length_eq_zero_iff.1 h0
      have e2 : ws = [] := List.length_eq_zero_iff.1 (by omega)
      simp [eq, ne, s1, s2, e1, e2]
    · have r1 := read_known h hi hu h0
      have r2 := read_known h hj hw (by omega)
      rw [← hl, hsz] at r2
      have hiff : (us.flatten = ws.flatten) ↔ (us = ws) := ⟨flatten_inj hku hkw hl, fun e => by rw [e]⟩
      simp only [eq, ne, s1, s2, hl, ne_eq, not_true_eq_false, if_false] at r1 r2 ⊢
      rw [← hl] at r1 r2 ⊢
      simp only [h0, if_false, Ty.params, r1, r2, memEq, mapM_id_map_some, Option.bind_eq_bind, Option.bind_some,
        Option.map_some, hiff, decide_not, and_self]
  · have hne : us ≠ ws := fun e => hl (by rw [e])
    simp [eq, ne, s1, s2, hl, hne]

/-- **C48, the limit for `pod_vector`.** `operator==` compares bytes. If the elements have an `operator==` of their own
that is not equality of bytes (floating point: `0.0 == -0.0`, a NaN; types with padding), then `operator==` of two vectors
of one element each disagrees with it. -/
theorem C48_pod_vector_bytes_defect (hA : Proper A) {y : Sys} {m : Mem} (hr : Reaches A y m) (eqv : List Byte → List Byte → Bool)
    (b c : List Byte) (hbc : eqv b c ≠ decide (b = c)) (i j : Nat) (V W : Spec.V)
    (hi : y i = some V) (hj : y j = some W) (hsz : W.sz = V.sz) (hu : V.xs = [some b])
    (hw : W.xs = [some c]) (T T' : Ty) (v v' : Vec) (hv : m.vec i = some (T, v)) (hv' : m.vec j = some (T', v')) :
    eq (T.params A) ⟨v, m.heap, m.tick⟩ ⟨v', m.heap, m.tick⟩ = some (!eqv b c) := by
  rw [(C48_pod_vector_eq hA hr i j V W hi hj hsz [b] [c] (by simpa using hu) (by simpa using hw) T T' v v' hv hv').1]
  congr 1
  by_cases h : b = c
  · simp only [h, decide_true] at hbc ⊢
    cases hx : eqv c c <;> simp_all
  · have : [b] ≠ [c] := by simpa using h
    simp only [h, this, decide_false] at hbc ⊢
    cases hx : eqv b c <;> simp_all

end Itlib.PodVector
