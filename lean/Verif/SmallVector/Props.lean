import Verif.Core.All2
import Verif.SmallVector.StepLemmas

/-!
# Properties of `small_vector`

C05 (sequence), C06 (lifetimes, ownership), C07 (capacity), C08 (shrinking), C09 (copy/move), the `small_vector` part of
C48 (equality), C49 (going back to the static buffer). Throwing constructors and allocators are treated in
`Exceptions.lean`.

Template parameters: `P.N` is `StaticCapacity`, `P.R` is `RevertToStaticBelow`; `0 < P.N` (a zero-sized array is
ill-formed, and the growth loop starting from capacity 0 would not end) and `P.R ≤ P.N + 1` (the `static_assert` at
small_vector.hpp:178) are assumed throughout.
-/
namespace Itlib.SmallVector
open Itlib Spec
variable {α : Type}

/-- `s` is the state of a vector after some history of calls that the specification allows and that avoids the
excluded calls; `h` and `xs` are what the specification says of it. -/
def Reaches (P : Params) (E : Elem α) (h : Home) (xs : List α) (s : St α) : Prop :=
  ∃ ops rs, Spec.run P.N P.R E ops .stat [] = some (rs, h, xs) ∧ SafeRun P.N P.R E ops .stat [] ∧
    run P E ops (new P) = some (rs, s)

theorem reaches_st {P : Params} {E : Elem α} {h : Home} {xs : List α} {s : St α} (hN : 0 < P.N) (hR : P.R ≤ P.N + 1)
    (hr : Reaches P E h xs s) :
    ∃ (C : Ctx α) (k nx : Nat) (g : List (Buf α)), C.P = P ∧ NoThrow C ∧ s = st C h k xs nx g ∧ Good C h k xs nx g := by
  obtain ⟨ops, rs, h1, h2, h3⟩ := hr
  obtain ⟨k', nx', g', e1, e2⟩ := run_st (C := ⟨P, 0, 0, fun _ => none, none, none⟩) E ⟨rfl, rfl⟩ ops (new_good hN hR) h2 h1
  rw [new_st] at h3
  have e1 : run P E ops _ = _ := e1
  rw [e1] at h3
  simp only [Option.some.injEq, Prod.mk.injEq, true_and] at h3
  exact ⟨_, k', nx', g', rfl, ⟨rfl, rfl⟩, h3.symm, e2⟩

/-! ## C05 -/

/-- **C05 (partial).** Any history of calls whose preconditions hold and which avoids the calls excluded by `SafeRun`
runs without undefined behaviour, gives the replies of the specification (in particular, positions out of range are
answered by `out_of_range`, with no effect), and leaves the elements of the specified list, as read through `size()` and
`operator[]`, in the specified buffer.

Missing for the full property: the calls excluded by `Safe`, on which the code is wrong, see the theorems
`C05_defect_*` and `C08_defect_*`. -/
theorem C05_small_vector_sequence_partial (P : Params) (E : Elem α) (hN : 0 < P.N) (hR : P.R ≤ P.N + 1)
    (ops : List (Op α)) (rs : List (Reply α)) (h : Home) (xs : List α)
    (hspec : Spec.run P.N P.R E ops .stat [] = some (rs, h, xs)) (hsafe : SafeRun P.N P.R E ops .stat []) :
    ∃ s, run P E ops (new P) = some (rs, s) ∧ size s = .ok xs.length s ∧
      (∀ i (hi : i < xs.length), at_ i s = .ok xs[i] s) ∧
      s.v.isStatic = decide (h = .stat) ∧ s.v.cap = h.cap P.N := by
  obtain ⟨k', nx', g', e1, e2⟩ := run_st (C := ⟨P, 0, 0, fun _ => none, none, none⟩) E ⟨rfl, rfl⟩ ops (new_good hN hR)
    hsafe hspec
  refine ⟨_, by rw [new_st]; exact e1, size_st .., fun i hi => at_st hi e2.len, ?_, rfl⟩
  simp [st]

/-- a history over a vector of static capacity 4 that uses every member function, goes to the heap and back several
times, has aliasing arguments and rejected calls -/
def demoOps : List (Op Nat) :=
  [.pushBack (.val 1), .emplaceBack (.val 2), .insert 1 (.val 3), .insert 2 (.self 0), .isStatic, .pushBack (.val 5), .isStatic,
   .insertN 0 2 (.val 9), .insertRange 7 [7, 8], .capacity, .insert 12 (.val 1), .insert (-1) (.val 1), .pushBack (.val 5),
   .erase 0, .eraseRange 1 3, .eraseRange 5 3, .eraseRange 7 7, .erase 9, .resize 12, .shrinkToFit, .popBack, .reserve 40,
   .resizeV 20 (.self 1), .get 3, .getBack, .size, .isEmpty, .set 2 (.self 4), .moveElem 0 3, .front, .forward, .eraseRange 3 20, .isStatic, .assignN 9 (.val 4), .resizeV 3 (.val 7),
   .revertToStatic, .isStatic, .clear, .popBack, .isEmpty, .assignRange [6, 6, 7], .set 1 (.val 8), .moveElem 2 0, .backward]

instance (N R d : Nat) (h : Home) (pos : Int) (v : Arg α) : Decidable (Stable N R d h pos v) := by
  cases v <;> simp only [Stable] <;> infer_instance

example : (Spec.run 4 3 ⟨id, 0⟩ demoOps .stat []).isSome = true ∧ SafeRun 4 3 ⟨id, 0⟩ demoOps .stat [] := by
  refine ⟨by decide +kernel, ?_⟩
  simp [demoOps, SafeRun, Safe, Stable, step, argVal, choose, moves, growTo, reserved, Home.cap]

/-- Defect: inserting zero elements anywhere but at the end has undefined behaviour (an element is constructed over
itself), unless the call happens to move the elements to another buffer. -/
theorem C05_defect_insert_nothing (P : Params) (E : Elem α) (hN : 0 < P.N) (hR : P.R ≤ P.N + 1) (h : Home) (xs : List α)
    (s : St α) (hr : Reaches P E h xs s) (p : Nat) (hp : p < xs.length) (hm : ¬ moves P.N P.R xs.length h) :
    call P E (.insertRange p []) s = none := by
  obtain ⟨C, k, nx, g, rfl, hT, rfl, hG⟩ := reaches_st hN hR hr
  have h1 : ¬ ((p : Int) < 0 ∨ (p : Int) > (xs.length : Int)) := by omega
  have hlen := hG.len
  have h4 : Buf.shiftUp E.mv 0 p (xs.length - p) (Buf.ofList (h.cap C.P.N) xs) = none := by
    obtain ⟨m, hm⟩ : ∃ m, xs.length - p = m + 1 := ⟨xs.length - p - 1, by omega⟩
    rw [hm]
    simp only [Buf.shiftUp, Buf.moveConstruct]
    rw [Buf.moveOut_live (by simp only [Buf.ofList_cap]; omega) (Buf.ofList_live (show p + m < xs.length by omega))]
    simp [Buf.construct, Buf.ofList_cap, show p + m < h.cap C.P.N by omega]
  have hch := chooseData_stay (C := C) (k := k) (b := Buf.ofList (h.cap C.P.N) xs) (n := xs.length) (nx := nx) (g := g) hm
  simp only [call, exec, insertRange, List.length_nil, growAt, M.bind_apply, size_st, h1, if_false, Int.toNat_natCast,
    Nat.add_zero]
  simp only [st, hch, M.get_apply, stB_bgn, if_true, M.bind_apply, setEnd_stB, onLoc_stB_none h4]

/-- Defect: `erase(first, first)` (an empty range) anywhere but at the end has undefined behaviour, unless the call
happens to move the elements to another buffer. -/
theorem C05_defect_erase_nothing (P : Params) (E : Elem α) (hN : 0 < P.N) (hR : P.R ≤ P.N + 1) (h : Home) (xs : List α)
    (s : St α) (hr : Reaches P E h xs s) (p : Nat) (hp : p < xs.length) (hm : ¬ moves P.N P.R xs.length h) :
    call P E (.eraseRange p p) s = none := by
  obtain ⟨C, k, nx, g, rfl, hT, rfl, hG⟩ := reaches_st hN hR hr
  have h1 : ¬ ((p : Int) < 0 ∨ (p : Int) > (xs.length : Int) ∨ (p : Int) + ((0 : Nat) : Int) > (xs.length : Int)) := by omega
  have h2 : ¬ (xs.length - 0 = 0) := by omega
  have hlen := hG.len
  have h4 : (fun b : Buf α => b.shiftDown E.mv xs.length (b.cap + 1) p (p + 0)) (Buf.ofList (h.cap C.P.N) xs) = none := by
    simp only [Buf.shiftDown, Nat.add_zero]
    rw [if_neg (by omega), Buf.destroy_live (by simp only [Buf.ofList_cap]; omega) (Buf.ofList_live hp)]
    simp [Buf.moveConstruct, Buf.moveOut, Buf.ofList_cap, show p < h.cap C.P.N by omega]
  have hch := chooseData_stay (C := C) (k := k) (b := Buf.ofList (h.cap C.P.N) xs) (n := xs.length) (nx := nx) (g := g) hm
  simp only [call, exec, eraseRange, gt_iff_lt, Int.lt_irrefl, if_false, Int.sub_self, Int.toNat_zero, shrinkAt, M.bind_apply,
    size_st] at h1 ⊢
  simp only [h1, if_false, h2, Int.toNat_natCast, M.bind_apply]
  simp only [st, Nat.sub_zero, hch, M.get_apply, stB_bgn, if_true, M.bind_apply, stB_endp]
  rw [onLoc_stB_none (f := fun b => b.shiftDown E.mv xs.length (b.cap + 1) p (p + 0)) h4]

/-- Defect: `v.assign(n, v[i])` with `n > 0` reads a destroyed element. -/
theorem C05_defect_assign_alias (P : Params) (E : Elem α) (hN : 0 < P.N) (hR : P.R ≤ P.N + 1) (h : Home) (xs : List α)
    (s : St α) (hr : Reaches P E h xs s) (n i : Nat) (hn : 0 < n) :
    call P E (.assignN n (.self i)) s = none := by
  obtain ⟨C, k, nx, g, rfl, hT, rfl, hG⟩ := reaches_st hN hR hr
  obtain ⟨n, rfl⟩ : ∃ m, n = m + 1 := ⟨n - 1, by omega⟩
  have hrd : ∀ c, (Buf.fresh c : Buf α).read i = none := by intro c; by_cases e : i < c <;> simp [Buf.read, Buf.fresh, e]
  simp only [call, exec, assignN, M.bind_apply, bindRef_st, destroyAll_st hG.len, assignFill]
  by_cases hm : moves C.P.N C.P.R (n + 1) h
  · obtain ⟨k', nx', hch, hdl, hw', hw2⟩ := chooseData_move (b := Buf.fresh (h.cap C.P.N)) (n := xs.length) (g := g)
      hG.N hT.2 hG.wf hm
    simp only [hch, setEnd_stB2, fillEnd, M.bind_apply, M.get_apply, refOf, loadRef, M.load, buf_src hdl, hrd,
      Option.bind_eq_bind, Option.bind_some]
  · simp only [chooseData_stay hm, setEnd_stB, fillEnd, M.bind_apply, M.get_apply, refOf, loadRef, M.load, buf_stB, hrd,
      Option.bind_eq_bind, Option.bind_some]

/-- Defect: adding a copy of an own element when the elements have to move to another buffer (the vector is full, or it
is on the heap with less than `R - 1` elements) reads a destroyed object or freed memory. -/
theorem C05_defect_push_back_alias_moves (P : Params) (E : Elem α) (hN : 0 < P.N) (hR : P.R ≤ P.N + 1) (h : Home)
    (xs : List α) (s : St α) (hr : Reaches P E h xs s) (hm : moves P.N P.R (xs.length + 1) h) (i : Nat) :
    call P E (.pushBack (.self i)) s = none := by
  obtain ⟨C, k, nx, g, rfl, hT, rfl, hG⟩ := reaches_st hN hR hr
  obtain ⟨k', nx', g', h1, h2, h3, h4⟩ := growAt_move E (num := 1) hG.N hG.R hT.2 hG.wf hG.raw (Nat.le_refl _) hm hG.len
  simp only [call, exec, pushBack, M.bind_apply, bindRef_st, size_st, h1, refOf, loadRef, M.load]
  generalize choose C.P.N C.P.R (xs.length + 1) h = h' at *
  have hb : ((stB C h' k' (StaticVector.gap (h'.cap C.P.N) xs xs.length 1) (xs.length + 1) nx' g').buf (loc C.i k h)).bind
      (·.read i) = none := by
    cases h with
    | stat =>
      cases h' with
      | stat => simp [loc] at h4
      | dyn c => simp [loc, St.buf, stB, putStat, Buf.read, Buf.fresh]
    | dyn c =>
      have ho := (hG.wf.own c rfl).2.1
      cases h' with
      | stat => simp [loc, St.buf, stB, putHeap, ho]
      | dyn c' =>
        simp [loc] at h4
        simp [loc, St.buf, stB, putHeap, h4, ho]
  simp only [Option.bind_eq_bind, hb]

/-- Defect: inserting a copy of the element at the insertion position reads a destroyed object, even when the elements
stay in their buffer. -/
theorem C05_defect_insert_alias_at_position (P : Params) (E : Elem α) (hN : 0 < P.N) (hR : P.R ≤ P.N + 1) (h : Home)
    (xs : List α) (s : St α) (hr : Reaches P E h xs s) (hm : ¬ moves P.N P.R (xs.length + 1) h) (p : Nat) (hp : p < xs.length) :
    call P E (.insert p (.self p)) s = none := by
  obtain ⟨C, k, nx, g, rfl, hT, rfl, hG⟩ := reaches_st hN hR hr
  have hge := choose_ge (d := xs.length + 1) hG.N hG.R hG.wf
  rw [choose_stay hm] at hge
  have h1 := growAt_stay E (num := 1) (k := k) (nx := nx) (g := g) (show p ≤ xs.length by omega) hm hge (by omega)
  have : (StaticVector.gap (h.cap C.P.N) xs p 1).read p = none := by
    simp [Buf.read, StaticVector.gap]
  simp only [call, exec, insert, M.bind_apply, bindRef_st, h1, refOf, loadRef, M.load, buf_stB, Option.bind_eq_bind,
    Option.bind_some, this]

/-- Defect: inserting a copy of an element after the insertion position inserts its left neighbour instead. -/
theorem C05_defect_insert_alias_after_position (P : Params) (E : Elem α) (hN : 0 < P.N) (hR : P.R ≤ P.N + 1) (h : Home)
    (xs : List α) (s : St α) (hr : Reaches P E h xs s) (hm : ¬ moves P.N P.R (xs.length + 1) h) (p i : Nat) (hp : p < i)
    (hi : i < xs.length) :
    ∃ s', call P E (.insert p (.self i)) s = some (.at p, s') ∧ size s' = .ok (xs.length + 1) s' ∧
      at_ p s' = .ok xs[i-1] s' := by
  obtain ⟨C, k, nx, g, rfl, hT, rfl, hG⟩ := reaches_st hN hR hr
  have hge := choose_ge (d := xs.length + 1) hG.N hG.R hG.wf
  rw [choose_stay hm] at hge
  have hp' : p ≤ xs.length := by omega
  have h1 := growAt_stay E (num := 1) (k := k) (nx := nx) (g := g) hp' hm hge (by omega)
  have h2 : (StaticVector.gap (h.cap C.P.N) xs p 1).read i = some (xs[i-1]'(by omega)) := by
    refine Buf.read_live (by simp only [StaticVector.gap]; omega) ?_
    simp only [StaticVector.gap]
    rw [if_neg (by omega), if_neg (by omega), Buf.ofList_live]
  have h3 := emplaceAt_stB (C := C) (h := h) (k := k) (n := xs.length + 1) (nx := nx) (g := g)
    hT.1 (gapFill_construct (a := xs[i-1]'(by omega)) (ys := []) (n := 1) (by simp) hge hp')
  simp only [List.length_nil, Nat.add_zero, List.nil_append] at h3
  refine ⟨st C h k (xs.take p ++ [xs[i-1]'(by omega)] ++ xs.drop p) nx g, ?_, ?_, ?_⟩
  · simp only [call, exec, insert, M.bind_apply, bindRef_st, h1, refOf, loadRef, M.load, buf_stB, Option.bind_eq_bind,
      Option.bind_some, h2]
    rw [StaticVector.gap_eq, h3]
    simp only [M.pure_apply]
    rw [stB_gapFull (ys := [xs[i-1]'(by omega)]) (N := 1) hp' rfl]
  · rw [size_st]
    congr 1
    simp; omega
  · have hl : (xs.take p ++ [xs[i-1]'(by omega)] ++ xs.drop p).length = xs.length + 1 := by simp; omega
    rw [at_st (show p < _ by rw [hl]; omega) (by rw [hl]; exact hge)]
    congr 1
    grind

/-! ## C06 -/

/-- What must hold of the memory of a program between two calls: nothing is lost, doubled or shared. -/
structure Clean (m : Mem α) : Prop where
  /-- every vector has a buffer whose size is its capacity; exactly the first `size()` slots hold live objects -/
  slots : ∀ i v, m.vec i = some v → ∃ b, (m.view v).buf v.bgn = some b ∧ v.endp = v.bgn ∧ v.cap = b.cap ∧ v.endo ≤ b.cap ∧
    (∀ p, p < v.endo → ∃ a, b.cells p = .live a) ∧ (∀ p, v.endo ≤ p → b.cells p = .raw)
  /-- an unused static buffer is empty -/
  unused : ∀ i v, m.vec i = some v → ¬ v.isStatic → ∀ p, v.stat.cells p = .raw
  /-- an allocated block belongs to exactly one vector, which has the allocator it came from -/
  owner : ∀ k b, m.heap k = some b → ∃ i v, m.vec i = some v ∧ v.bgn = .dyn k ∧ v.al = b.al ∧
    ∀ j w, m.vec j = some w → w.bgn = .dyn k → j = i
  /-- released blocks and destroyed vectors contain no live object -/
  dead : ∀ b ∈ m.graves, ∀ p, b.cells p = .raw

theorem mrep_clean {P : Params} {y : Sys α} {blk : Nat → Nat} {m : Mem α} (hM : MRep P (fun _ => none) y blk m) : Clean m := by
  have hv : ∀ {i v}, m.vec i = some v → ∃ w, y i = some w ∧ v = vecRep P i (blk i) w := by
    intro i v h
    rw [hM.vec i] at h
    simp only [Option.map_eq_some_iff] at h
    obtain ⟨w, h1, h2⟩ := h
    exact ⟨w, h1, h2.symm⟩
  refine ⟨?_, ?_, ?_, hM.raw⟩
  · intro i v h
    obtain ⟨w, hw, rfl⟩ := hv h
    rw [view_st hM hw]
    refine ⟨Buf.ofList (w.home.cap P.N) w.xs, ?_, rfl, rfl, hM.len i w hw, ?_, ?_⟩
    · exact buf_stB (C := others P m i (blk i) w)
    · intro p hp
      exact ⟨_, Buf.ofList_live hp⟩
    · intro p hp
      exact Buf.ofList_raw hp
  · intro i v h hs
    obtain ⟨w, hw, rfl⟩ := hv h
    intro p
    cases hh : w.home with
    | stat => exact absurd (by simp [vecRep, Vec.isStatic, hh, loc]) hs
    | dyn c => simp [vecRep, hh, putStat, Buf.fresh]
  · intro k b hk
    obtain ⟨i, w, c, h1, h2, h3⟩ := hM.owner hk
    refine ⟨i, vecRep P i (blk i) w, by rw [hM.vec i, h1]; rfl, by simp [vecRep, loc, h2, h3], ?_, ?_⟩
    · have := (hM.own i w c h1 h2).1
      rw [h3, hk] at this
      simp only [Option.some.injEq] at this
      rw [this]; rfl
    · intro j v' hj hb
      obtain ⟨w', hw', rfl⟩ := hv hj
      cases hh : w'.home with
      | stat => simp [vecRep, hh, loc] at hb
      | dyn c' =>
        simp only [vecRep, hh, loc, Loc.dyn.injEq] at hb
        exact hM.inj j i w' w c' c hw' h1 hh h2 (by omega)

/-- **C06 (partial, same guard as C05).** Programs with any number of vectors on one heap. No undefined behaviour: no
construction over a live object, no access to a dead object, freed block or slot out of a buffer, no block released twice
or with a size or allocator other than its own (any of these would make `mrun` return `none`). At the end memory is
`Clean`, the existing vectors are those of the specification, and if there are none, nothing is allocated. As this holds
for every history it holds after every prefix of one. -/
theorem C06_small_vector_no_leaks_partial (P : Params) (E : Elem α) (hN : 0 < P.N) (hR : P.R ≤ P.N + 1)
    (ops : List (MOp α)) (rs : List (Reply α)) (y : Sys α)
    (hspec : Spec.mrun P.N P.R E ops (fun _ => none) = some (rs, y))
    (hsafe : MSafeRun P.N P.R E ops (fun _ => none)) :
    ∃ m, mrun P E ops Mem.init = some (rs, m) ∧ Clean m ∧ (∀ i, m.vec i = none ↔ y i = none) ∧
      ((∀ i, y i = none) → ∀ k, m.heap k = none) := by
  obtain ⟨m, blk, h1, hM⟩ := mrun_mrep E hN hR ops (init_mrep P) hsafe hspec
  refine ⟨m, h1, mrep_clean hM, ?_, ?_⟩
  · intro i; rw [hM.vec i]; simp
  · intro hy k
    cases hk : m.heap k with
    | none => rfl
    | some b =>
      obtain ⟨i, v, c, h2, _⟩ := hM.owner hk
      rw [hy i] at h2; simp at h2

/-- a program with several vectors, on the heap and not, meeting the hypotheses of C06 and C09 -/
def demoMOps : List (MOp Nat) :=
  [.ctor 0 4, .call 0 (.assignRange [1, 2, 3]), .copyCtor 1 4 0, .call 1 .popBack, .copyCtor 2 7 1,
   .moveCtor 3 0, .copyAssign 0 3, .copyAssign 0 0, .moveAssign 1 0, .moveAssign 1 1, .ctorVal 4 2 9 5, .ctorCount 5 3 2, .dtor 1,
   .ctorRange 1 4 [8, 9], .dtor 0, .moveAssign 5 4, .copyAssign 1 5, .moveAssign 5 2, .moveCtor 0 1, .call 0 (.eraseRange 1 9),
   .call 4 (.pushBack (.val 1)), .dtor 0, .dtor 1, .dtor 2, .dtor 3, .dtor 4]

example : (Spec.mrun 2 1 ⟨id, 0⟩ demoMOps (fun _ => none)).isSome = true ∧ MSafeRun 2 1 ⟨id, 0⟩ demoMOps (fun _ => none) := by
  refine ⟨by decide +kernel, ?_⟩
  simp [demoMOps, MSafeRun, MSafe, Safe, Stable, mstep, step, Sys.put, choose, growTo, argVal]

/-! ## C07 -/

/-- `size() <= capacity()` in every reachable state. -/
theorem C07_size_le_capacity_partial (P : Params) (E : Elem α) (hN : 0 < P.N) (hR : P.R ≤ P.N + 1) (h : Home) (xs : List α)
    (s : St α) (hr : Reaches P E h xs s) : ∃ n, size s = .ok n s ∧ n ≤ s.v.cap := by
  obtain ⟨C, k, nx, g, rfl, hT, rfl, hG⟩ := reaches_st hN hR hr
  exact ⟨xs.length, size_st .., hG.len⟩

/-- After `reserve(n)` in a reachable state the capacity is at least `n` (and not less than before), the elements are
what they were, and if `n` was not more than the capacity they have not moved. -/
theorem C07_reserve (P : Params) (E : Elem α) (hN : 0 < P.N) (hR : P.R ≤ P.N + 1) (h : Home) (xs : List α)
    (s : St α) (hr : Reaches P E h xs s) (n : Nat) :
    ∃ s', call P E (.reserve n) s = some (.done, s') ∧ n ≤ s'.v.cap ∧ s.v.cap ≤ s'.v.cap ∧ size s' = .ok xs.length s' ∧
      (∀ i (hi : i < xs.length), at_ i s' = .ok xs[i] s') ∧ (n ≤ s.v.cap → s'.v.bgn = s.v.bgn) := by
  obtain ⟨C, k, nx, g, rfl, hT, rfl, hG⟩ := reaches_st hN hR hr
  obtain ⟨k', nx', g', e1, e2, e3⟩ := reserve_st E (d := n) hG hT.2
  refine ⟨_, by simp only [call, exec, M.bind_apply, e1]; rfl, ?_, ?_, size_st .., fun i hi => at_st hi e2.len, ?_⟩
  · simp only [st, stB_cap]
    by_cases hd : n ≤ h.cap C.P.N
    · simp [reserved, hd]
    · simpa [reserved, hd] using choose_ge (d := n) hG.N hG.R hG.wf
  · simp only [st, stB_cap]
    by_cases hd : n ≤ h.cap C.P.N
    · simp [reserved, hd]
    · have := choose_ge (d := n) hG.N hG.R hG.wf
      simp only [reserved, hd, if_false]
      omega
  · intro hc
    simp only [st, stB_bgn, stB_cap] at hc ⊢
    rw [e3 hc]
    simp [reserved, hc]

theorem choose_cap_mono {N R d : Nat} {h : Home} (hh : ∀ c, h = .dyn c → N ≤ c) :
    h.cap N ≤ (choose N R d h).cap N ∨ d < R := by
  cases h with
  | stat =>
    left
    by_cases e : d ≤ N
    · simp [choose, e]
    · simp only [choose, e, if_false, Home.cap]; omega
  | dyn c =>
    have := hh c rfl
    by_cases e : d ≤ c
    · by_cases e' : d < R
      · exact Or.inr e'
      · left; simp [choose, e, e']
    · left
      simp only [choose, e, if_false, Home.cap]
      by_cases h0 : c = 0
      · omega
      · exact (growTo_ge d d c (by omega) (by omega)).2

/-- No call but `shrink_to_fit` and `revert_to_static` lowers the capacity, unless it leaves less than
`RevertToStaticBelow` elements.

Missing (this is why C07 is partial): the documentation allows this only for calls that reduce the size, see
`C07_defect_push_back_drops_reserve`. -/
theorem C07_capacity_kept_partial (P : Params) (E : Elem α) (hN : 0 < P.N) (hR : P.R ≤ P.N + 1) (h : Home) (xs : List α)
    (s : St α) (hr : Reaches P E h xs s) (op : Op α) (hop : op ≠ .shrinkToFit ∧ op ≠ .revertToStatic)
    (hs : Safe P.N P.R op h xs) (r : Reply α) (h' : Home) (xs' : List α) (hst : step P.N P.R E op h xs = some (r, h', xs')) :
    ∃ s', call P E op s = some (r, s') ∧ (s.v.cap ≤ s'.v.cap ∨ xs'.length < P.R) := by
  obtain ⟨C, k, nx, g, rfl, hT, rfl, hG⟩ := reaches_st hN hR hr
  obtain ⟨k', nx', g', e1, e2⟩ := call_st E hG hT hs hst
  refine ⟨_, e1, ?_⟩
  simp only [st, stB_cap]
  have hc := fun d => choose_cap_mono (N := C.P.N) (R := C.P.R) (d := d) (h := h) (fun c hc => (hG.wf.own c hc).2.2)
  have hrs : ∀ n, h.cap C.P.N ≤ (reserved C.P.N C.P.R n h).cap C.P.N := by
    intro n
    by_cases hd : n ≤ h.cap C.P.N
    · simp [reserved, hd]
    · have := choose_ge (d := n) hG.N hG.R hG.wf
      simp only [reserved, hd, if_false]
      omega
  have hcl : h.cap C.P.N ≤ (if 0 < C.P.R then Home.stat else h).cap C.P.N ∨ 0 < C.P.R := by
    by_cases e : 0 < C.P.R
    · exact Or.inr e
    · left; simp [e]
  have hins : ∀ (p : Nat) (ys : List α), p ≤ xs.length → (xs.take p ++ ys ++ xs.drop p).length = xs.length + ys.length := by
    intro p ys hp; simp; omega
  cases op with
  | pushBack v =>
    simp only [step, Option.bind_eq_bind, Option.bind_eq_some_iff] at hst
    obtain ⟨a, ha, hst⟩ := hst
    simp only [Option.some.injEq, Prod.mk.injEq] at hst; obtain ⟨rfl, rfl, rfl⟩ := hst
    simpa using hc (xs.length + 1)
  | emplaceBack v =>
    simp only [step, Option.bind_eq_bind, Option.bind_eq_some_iff] at hst
    obtain ⟨a, ha, hst⟩ := hst
    simp only [Option.some.injEq, Prod.mk.injEq] at hst; obtain ⟨rfl, rfl, rfl⟩ := hst
    simpa using hc (xs.length + 1)
  | popBack =>
    simp only [step, Option.bind_eq_bind, Option.bind_eq_some_iff] at hst
    obtain ⟨⟨r1, h1, x1⟩, h2, hst⟩ := hst
    simp only [Option.some.injEq, Prod.mk.injEq] at hst; obtain ⟨rfl, rfl, rfl⟩ := hst
    split at h2
    · simp only [Option.some.injEq, Prod.mk.injEq] at h2; obtain ⟨rfl, rfl, rfl⟩ := h2
      split
      · rename_i e; rw [e]; exact hcl
      · exact hc _
    · simp only [Option.some.injEq, Prod.mk.injEq] at h2; obtain ⟨rfl, rfl, rfl⟩ := h2
      exact Or.inl (Nat.le_refl _)
  | insert pos v =>
    simp only [step, Option.bind_eq_bind, Option.bind_eq_some_iff] at hst
    obtain ⟨a, ha, hst⟩ := hst
    split at hst
    · simp only [Option.some.injEq, Prod.mk.injEq] at hst; obtain ⟨rfl, rfl, rfl⟩ := hst
      rw [hins _ _ (by omega)]; exact hc _
    · simp only [Option.some.injEq, Prod.mk.injEq] at hst; obtain ⟨rfl, rfl, rfl⟩ := hst
      exact Or.inl (Nat.le_refl _)
  | insertN pos n v =>
    simp only [step, Option.bind_eq_bind, Option.bind_eq_some_iff] at hst
    obtain ⟨a, ha, hst⟩ := hst
    split at hst
    · simp only [Option.some.injEq, Prod.mk.injEq] at hst; obtain ⟨rfl, rfl, rfl⟩ := hst
      rw [hins _ _ (by omega)]; exact hc _
    · simp only [Option.some.injEq, Prod.mk.injEq] at hst; obtain ⟨rfl, rfl, rfl⟩ := hst
      exact Or.inl (Nat.le_refl _)
  | insertRange pos ys =>
    simp only [step] at hst
    split at hst
    · simp only [Option.some.injEq, Prod.mk.injEq] at hst; obtain ⟨rfl, rfl, rfl⟩ := hst
      rw [hins _ _ (by omega)]; exact hc _
    · simp only [Option.some.injEq, Prod.mk.injEq] at hst; obtain ⟨rfl, rfl, rfl⟩ := hst
      exact Or.inl (Nat.le_refl _)
  | erase pos =>
    simp only [step] at hst
    split at hst
    · simp only [Option.some.injEq, Prod.mk.injEq] at hst; obtain ⟨rfl, rfl, rfl⟩ := hst
      split
      · rename_i e; rw [e]; exact hcl
      · exact hc _
    · simp only [Option.some.injEq, Prod.mk.injEq] at hst; obtain ⟨rfl, rfl, rfl⟩ := hst
      exact Or.inl (Nat.le_refl _)
  | eraseRange f l =>
    simp only [step] at hst
    split at hst
    · simp only [Option.some.injEq, Prod.mk.injEq] at hst; obtain ⟨rfl, rfl, rfl⟩ := hst
      split
      · rename_i e; rw [e]; exact hcl
      · exact hc _
    · simp only [Option.some.injEq, Prod.mk.injEq] at hst; obtain ⟨rfl, rfl, rfl⟩ := hst
      exact Or.inl (Nat.le_refl _)
  | clear =>
    simp only [step, Option.some.injEq, Prod.mk.injEq] at hst; obtain ⟨rfl, rfl, rfl⟩ := hst
    exact hcl
  | resize n =>
    simp only [step, Option.some.injEq, Prod.mk.injEq] at hst; obtain ⟨rfl, rfl, rfl⟩ := hst
    exact Or.inl (hrs n)
  | resizeV n v =>
    simp only [step, Option.bind_eq_bind, Option.bind_eq_some_iff] at hst
    obtain ⟨a, ha, hst⟩ := hst
    simp only [Option.some.injEq, Prod.mk.injEq] at hst; obtain ⟨rfl, rfl, rfl⟩ := hst
    exact Or.inl (hrs n)
  | assignN n v =>
    simp only [step, Option.bind_eq_bind, Option.bind_eq_some_iff] at hst
    obtain ⟨a, ha, hst⟩ := hst
    simp only [Option.some.injEq, Prod.mk.injEq] at hst; obtain ⟨rfl, rfl, rfl⟩ := hst
    simpa using hc n
  | assignRange ys =>
    simp only [step, Option.some.injEq, Prod.mk.injEq] at hst; obtain ⟨rfl, rfl, rfl⟩ := hst
    exact hc _
  | reserve n =>
    simp only [step, Option.some.injEq, Prod.mk.injEq] at hst; obtain ⟨rfl, rfl, rfl⟩ := hst
    exact Or.inl (hrs n)
  | shrinkToFit => exact absurd rfl hop.1
  | revertToStatic => exact absurd rfl hop.2
  | get i =>
    simp only [step, Option.bind_eq_bind, Option.bind_eq_some_iff] at hst
    obtain ⟨a, ha, hst⟩ := hst
    simp only [Option.some.injEq, Prod.mk.injEq] at hst; obtain ⟨rfl, rfl, rfl⟩ := hst
    exact Or.inl (Nat.le_refl _)
  | getBack =>
    simp only [step, Option.bind_eq_bind, Option.bind_eq_some_iff] at hst
    obtain ⟨a, ha, hst⟩ := hst
    simp only [Option.some.injEq, Prod.mk.injEq] at hst; obtain ⟨rfl, rfl, rfl⟩ := hst
    exact Or.inl (Nat.le_refl _)
  | front =>
    simp only [step, Option.bind_eq_bind, Option.bind_eq_some_iff] at hst
    obtain ⟨a, ha, hst⟩ := hst
    simp only [Option.some.injEq, Prod.mk.injEq] at hst; obtain ⟨rfl, rfl, rfl⟩ := hst
    exact Or.inl (Nat.le_refl _)
  | set i v =>
    simp only [step, Option.bind_eq_bind, Option.bind_eq_some_iff] at hst
    obtain ⟨a, ha, hst⟩ := hst
    split at hst
    · simp only [Option.some.injEq, Prod.mk.injEq] at hst; obtain ⟨rfl, rfl, rfl⟩ := hst
      exact Or.inl (Nat.le_refl _)
    · exact absurd hst (by simp)
  | moveElem i j =>
    simp only [step, Option.bind_eq_bind, Option.bind_eq_some_iff] at hst
    obtain ⟨a, ha, hst⟩ := hst
    split at hst
    · simp only [Option.some.injEq, Prod.mk.injEq] at hst; obtain ⟨rfl, rfl, rfl⟩ := hst
      exact Or.inl (Nat.le_refl _)
    · exact absurd hst (by simp)
  | isEmpty =>
    simp only [step, Option.some.injEq, Prod.mk.injEq] at hst; obtain ⟨rfl, rfl, rfl⟩ := hst
    exact Or.inl (Nat.le_refl _)
  | forward =>
    simp only [step, Option.some.injEq, Prod.mk.injEq] at hst; obtain ⟨rfl, rfl, rfl⟩ := hst
    exact Or.inl (Nat.le_refl _)
  | backward =>
    simp only [step, Option.some.injEq, Prod.mk.injEq] at hst; obtain ⟨rfl, rfl, rfl⟩ := hst
    exact Or.inl (Nat.le_refl _)
  | size =>
    simp only [step, Option.some.injEq, Prod.mk.injEq] at hst; obtain ⟨rfl, rfl, rfl⟩ := hst
    exact Or.inl (Nat.le_refl _)
  | capacity =>
    simp only [step, Option.some.injEq, Prod.mk.injEq] at hst; obtain ⟨rfl, rfl, rfl⟩ := hst
    exact Or.inl (Nat.le_refl _)
  | isStatic =>
    simp only [step, Option.some.injEq, Prod.mk.injEq] at hst; obtain ⟨rfl, rfl, rfl⟩ := hst
    exact Or.inl (Nat.le_refl _)

/-- `push_back` within the capacity does not move the elements, provided the vector is static or the new size is not
below `RevertToStaticBelow`.

Missing: that proviso, see `C07_defect_push_back_drops_reserve`. -/
theorem C07_push_back_stable_partial (P : Params) (E : Elem α) (hN : 0 < P.N) (hR : P.R ≤ P.N + 1) (h : Home) (xs : List α)
    (s : St α) (hr : Reaches P E h xs s) (a : α) (hc : xs.length < s.v.cap) (hm : s.v.isStatic ∨ P.R ≤ xs.length + 1) :
    ∃ s', call P E (.pushBack (.val a)) s = some (.done, s') ∧ s'.v.bgn = s.v.bgn ∧ s'.v.cap = s.v.cap := by
  obtain ⟨C, k, nx, g, rfl, hT, rfl, hG⟩ := reaches_st hN hR hr
  simp only [st, stB_cap, isStatic_stB, decide_eq_true_eq] at hc hm
  have hmv : ¬ moves C.P.N C.P.R (xs.length + 1) h := by
    cases h with
    | stat => simp only [moves, Home.cap] at hc ⊢; omega
    | dyn c => simp only [moves, Home.cap] at hc ⊢; simp at hm; omega
  obtain ⟨k', nx', g', e1, e2, e3⟩ := pushBack_st E (v := .val a) (a := a) hG hT rfl trivial
  rw [choose_stay hmv] at e1
  have := e3 hmv
  subst this
  exact ⟨st C h k' (xs ++ [a]) nx' g', by simp only [call, exec, M.bind_apply, e1]; rfl, rfl, rfl⟩

/-- Defect: in a vector on the heap (say, because of a `reserve`) a `push_back` that leaves less than
`RevertToStaticBelow` elements moves them to the static buffer and gives up the reserved capacity. -/
theorem C07_defect_push_back_drops_reserve (P : Params) (E : Elem α) (hN : 0 < P.N) (hR : P.R ≤ P.N + 1) (c : Nat) (xs : List α)
    (s : St α) (hr : Reaches P E (.dyn c) xs s) (a : α) (hs : xs.length < c) (hx : xs.length + 1 < P.R) :
    ∃ s', call P E (.pushBack (.val a)) s = some (.done, s') ∧ s.v.cap = c ∧ s'.v.cap = P.N ∧ s'.v.isStatic = true := by
  obtain ⟨C, k, nx, g, rfl, hT, rfl, hG⟩ := reaches_st hN hR hr
  obtain ⟨k', nx', g', e1, e2, e3⟩ := pushBack_st E (v := .val a) (a := a) hG hT rfl trivial
  have : choose C.P.N C.P.R (xs.length + 1) (.dyn c) = .stat := by
    simp only [choose]; rw [if_pos (by omega), if_pos hx]
  rw [this] at e1
  refine ⟨_, by simp only [call, exec, M.bind_apply, e1]; rfl, rfl, rfl, ?_⟩
  simp [st]

/-- such a state: `small_vector<int, 4, 5> v; v.reserve(100);` -/
example : ∃ s, Reaches ⟨4, 5⟩ ⟨id, 0⟩ (.dyn 100) ([] : List Nat) s ∧ 0 + 1 < 5 :=
  ⟨_, ⟨[.reserve 100], [.done], rfl, by simp [SafeRun, Safe, step], rfl⟩, by decide⟩

/-! ## C08 -/

/-- `shrink_to_fit()` in any reachable state keeps the contents; afterwards the vector is in its static buffer or its
capacity equals its size. It tells whether the capacity changed. -/
theorem C08_shrink_to_fit (P : Params) (E : Elem α) (hN : 0 < P.N) (hR : P.R ≤ P.N + 1) (h : Home) (xs : List α)
    (s : St α) (hr : Reaches P E h xs s) :
    ∃ b s', call P E .shrinkToFit s = some (.bool b, s') ∧ size s' = .ok xs.length s' ∧
      (∀ i (hi : i < xs.length), at_ i s' = .ok xs[i] s') ∧ (s'.v.isStatic = false → s'.v.cap = xs.length) ∧
      (b = false → s' = s) ∧ (b = true → s.v.isStatic = false ∧ s'.v.cap < s.v.cap ∨ s'.v.isStatic = true ∧ s.v.isStatic = false) := by
  obtain ⟨C, k, nx, g, rfl, hT, rfl, hG⟩ := reaches_st hN hR hr
  obtain ⟨k', nx', g', e1, e2⟩ := shrinkToFit_st E hG hT.2
  have hl := hG.len
  cases h with
  | stat =>
    have e1 : shrinkToFit C.P E (st C .stat k xs nx g) = .ok false (st C .stat k xs nx g) := by
      simp only [shrinkToFit, M.bind_apply, size_st, M.get_apply]
      simp only [st, stB_cap, isStatic_stB, decide_true, if_true, M.pure_apply, ite_self]
    exact ⟨false, _, by simp only [call, exec, M.bind_apply, e1]; rfl, size_st .., fun i hi => at_st hi hG.len, by simp [st], fun _ => rfl, by simp⟩
  | dyn c =>
    simp only [Home.cap] at hl
    simp only [shrunk] at e1 e2
    by_cases h1 : xs.length = c
    · have e1 : shrinkToFit C.P E (st C (.dyn c) k xs nx g) = .ok false (st C (.dyn c) k xs nx g) := by
        simp only [shrinkToFit, M.bind_apply, size_st, M.get_apply]
        simp only [st, stB_cap, Home.cap, h1, if_true, M.pure_apply]
      exact ⟨false, _, by simp only [call, exec, M.bind_apply, e1]; rfl, size_st .., fun i hi => at_st hi hG.len, by simp [st, Home.cap, h1],
        fun _ => rfl, by simp⟩
    · simp only [h1, if_false] at e1 e2
      by_cases h2 : xs.length < C.P.N
      · simp only [h2, if_true] at e1 e2
        exact ⟨true, _, by simp only [call, exec, M.bind_apply, e1]; rfl, size_st .., fun i hi => at_st hi e2.len, by simp [st], by simp,
          fun _ => Or.inr (by simp [st])⟩
      · simp only [h2, if_false] at e1 e2
        exact ⟨true, _, by simp only [call, exec, M.bind_apply, e1]; rfl, size_st .., fun i hi => at_st hi e2.len, by simp [st, Home.cap], by simp,
          fun _ => Or.inl (by simp [st, Home.cap]; omega)⟩

/-- **C08 (partial).** `revert_to_static()` returns true exactly if afterwards the static buffer is in use, keeps the
contents, and does so whenever they fit, except for a heap vector with exactly `StaticCapacity` elements.

Missing: that case, see `C08_defect_revert_full`. -/
theorem C08_revert_to_static_partial (P : Params) (E : Elem α) (hN : 0 < P.N) (hR : P.R ≤ P.N + 1) (h : Home) (xs : List α)
    (s : St α) (hr : Reaches P E h xs s) (hs : s.v.isStatic = true ∨ xs.length ≠ P.N) :
    ∃ b s', call P E .revertToStatic s = some (.bool b, s') ∧ size s' = .ok xs.length s' ∧
      (∀ i (hi : i < xs.length), at_ i s' = .ok xs[i] s') ∧ (b = true ↔ s'.v.isStatic = true) ∧
      (s'.v.isStatic = true ↔ xs.length ≤ P.N) := by
  obtain ⟨C, k, nx, g, rfl, hT, rfl, hG⟩ := reaches_st hN hR hr
  simp only [st, isStatic_stB, decide_eq_true_eq] at hs
  have hst : step C.P.N C.P.R E .revertToStatic h xs =
      some (.bool (decide (h = .stat ∨ xs.length ≤ C.P.N)), if h = .stat ∨ xs.length ≤ C.P.N then .stat else h, xs) := by
    simp only [step]; split <;> simp [*]
  obtain ⟨k', nx', g', e1, e2⟩ := call_st E hG hT (show Safe C.P.N C.P.R .revertToStatic h xs from hs) hst
  refine ⟨_, _, e1, size_st .., fun i hi => at_st hi e2.len, ?_, ?_⟩
  · simp only [st, isStatic_stB, decide_eq_true_eq]
    split <;> simp [*]
    rename_i hh
    exact fun e => hh (Or.inl e)
  · simp only [st, isStatic_stB, decide_eq_true_eq]
    have := hG.len
    cases h with
    | stat => simpa [Home.cap] using this
    | dyn c => simp

/-- Defect: a heap vector with exactly `StaticCapacity` elements stays on the heap, but `revert_to_static()` claims that
it went back to the static buffer, whose capacity would suffice. -/
theorem C08_defect_revert_full (P : Params) (E : Elem α) (hN : 0 < P.N) (hR : P.R ≤ P.N + 1) (c : Nat) (xs : List α)
    (s : St α) (hr : Reaches P E (.dyn c) xs s) (hx : xs.length = P.N) :
    ∃ s', call P E .revertToStatic s = some (.bool true, s') ∧ s'.v.isStatic = false := by
  obtain ⟨C, k, nx, g, rfl, hT, rfl, hG⟩ := reaches_st hN hR hr
  obtain ⟨k', nx', g', e1, e2⟩ := revertToStatic_st E hG hT.2
  refine ⟨_, by simp only [call, exec, M.bind_apply, e1, M.pure_apply, hx]; simp; rfl, ?_⟩
  simp only [st, isStatic_stB, hx, shrunk, Nat.lt_irrefl, if_false]
  split <;> simp

/-- such a state: `small_vector<int, 2> v{1, 2, 3}; v.pop_back();` -/
example : ∃ s, Reaches ⟨2, 0⟩ ⟨id, 0⟩ (.dyn 3) ([1, 2] : List Nat) s ∧ [1, 2].length = 2 :=
  ⟨_, ⟨[.assignRange [1, 2, 3], .popBack], [.done, .done], rfl, by simp [SafeRun, Safe, step, choose], rfl⟩, rfl⟩

/-! ## C09 -/

/-- **C09 (partial: other calls of the program have the guard of C05).** In programs with any number of vectors,
created, copied, moved, assigned (also to themselves) and destroyed in any order, interleaved with member calls, every
vector has the contents, buffer kind, capacity and allocator that the specification says: copies are equal and
independent, moved-from vectors are empty and usable, self-assignment does nothing. -/
theorem C09_small_vector_copy_move_partial (P : Params) (E : Elem α) (hN : 0 < P.N) (hR : P.R ≤ P.N + 1)
    (ops : List (MOp α)) (rs : List (Reply α)) (y : Sys α)
    (hspec : Spec.mrun P.N P.R E ops (fun _ => none) = some (rs, y))
    (hsafe : MSafeRun P.N P.R E ops (fun _ => none)) :
    ∃ m, mrun P E ops Mem.init = some (rs, m) ∧ (∀ i, m.vec i = none ↔ y i = none) ∧
      ∀ i v, y i = some v → ∃ u, m.vec i = some u ∧ u.al = v.al ∧ u.cap = v.home.cap P.N ∧
        u.isStatic = decide (v.home = .stat) ∧ size (m.view u) = .ok v.xs.length (m.view u) ∧
        ∀ k (hk : k < v.xs.length), at_ k (m.view u) = .ok v.xs[k] (m.view u) := by
  obtain ⟨m, blk, h1, hM⟩ := mrun_mrep E hN hR ops (init_mrep P) hsafe hspec
  refine ⟨m, h1, ?_, ?_⟩
  · intro i; rw [hM.vec i]; simp
  · intro i v hv
    refine ⟨vecRep P i (blk i) v, by rw [hM.vec i, hv]; rfl, rfl, rfl, ?_, ?_, ?_⟩
    · cases hh : v.home <;> simp [vecRep, Vec.isStatic, hh, loc]
    · rw [view_st hM hv, size_st]
    · intro k hk
      rw [view_st hM hv]
      exact at_st hk (hM.len i v hv)

/-- **C09, no relocation.** Moving (by construction or assignment) from a vector on the heap, after any such program,
hands over the very buffer: afterwards the destination's elements are where the source's were. -/
theorem C09_move_keeps_buffer_partial (P : Params) (E : Elem α) (hN : 0 < P.N) (hR : P.R ≤ P.N + 1)
    (ops : List (MOp α)) (rs : List (Reply α)) (y : Sys α)
    (hspec : Spec.mrun P.N P.R E ops (fun _ => none) = some (rs, y))
    (hsafe : MSafeRun P.N P.R E ops (fun _ => none)) (i j : Nat) (hij : i ≠ j)
    (w : V α) (c : Nat) (hw : y j = some w) (hc : w.home = .dyn c) :
    ∃ m u, mrun P E ops Mem.init = some (rs, m) ∧ m.vec j = some u ∧
      (y i = none → ∃ m' u', mcall P E (.moveCtor i j) m = some (.done, m') ∧ m'.vec i = some u' ∧ u'.bgn = u.bgn) ∧
      (y i ≠ none → ∃ m' u', mcall P E (.moveAssign i j) m = some (.done, m') ∧ m'.vec i = some u' ∧ u'.bgn = u.bgn) := by
  obtain ⟨m, blk, h1, hM⟩ := mrun_mrep E hN hR ops (init_mrep P) hsafe hspec
  have hvj : m.vec j = some (vecRep P j (blk j) w) := by rw [hM.vec j, hw]; rfl
  have h1' : (vecRep P j (blk j) w).al = w.al := rfl
  have h2' : (vecRep P j (blk j) w).cap = w.home.cap P.N := rfl
  refine ⟨m, _, h1, hvj, ?_, ?_⟩
  · intro hy
    have hvi : m.vec i = none := by rw [hM.vec i, hy]; rfl
    let vi : Vec α := ⟨i, .stat i, .stat i, 0, w.home.cap P.N, w.al, Buf.fresh P.N⟩
    have hup : ({ m with vec := Function.update (Function.update m.vec i (some vi)) i none } : Mem α) = m := by
      rw [Function.update_idem, ← hvi, Function.update_eq_self]
    obtain ⟨m2, blk2, e1, e2, e3⟩ := takeImpl_mrep E (m := { m with vec := Function.update m.vec i (some vi) }) (vi := vi)
      (y := y) (blk := blk) (w := w) (j := j) hij (by rw [hup]; exact hM) hw (by simp) rfl rfl rfl rfl
    have e4 := e3 c _ hc (by simp only [Function.update_apply, Ne.symm hij, if_false]; exact hvj)
    simp only [Option.map_eq_some_iff] at e4
    obtain ⟨u', e5, e6⟩ := e4
    refine ⟨m2, u', ?_, e5, e6⟩
    simp only [mcall, mexec, moveCtor, M.bind_apply, M.get_apply, hvj, construct, M.mem, hvi, at', Function.update_self,
      Mem.view, M.modify_apply, Mem.upd, Function.update_idem, h1', h2']
    simp only [vi] at e1
    rw [e1]
    rfl
  · intro hy
    obtain ⟨v, hv⟩ := Option.ne_none_iff_exists'.mp hy
    obtain ⟨m1, vi, e1, e2, e3, e4, e5, e6, e7, e8⟩ := dropOld_mrep hN hR w.al (w.home.cap P.N) hM hv
    have hwj : (y.put i none) j = some w := by simp [Sys.put, Ne.symm hij, hw]
    obtain ⟨m2, blk2, f1, f2, f3⟩ := takeImpl_mrep E hij e2 hwj e3 e4 e5 e6 e7
    have f4 := f3 c _ hc (by rw [e8 j (Ne.symm hij)]; exact hvj)
    simp only [Option.map_eq_some_iff] at f4
    obtain ⟨u', f5, f6⟩ := f4
    refine ⟨m2, u', ?_, f5, f6⟩
    simp only [mcall, mexec, moveAssign, hij, if_false, M.bind_apply, M.get_apply, hvj, h1', h2']
    rw [e1]
    simp only [f1]
    rfl

example : ∃ (rs : List (Reply Nat)) (y : Sys Nat), Spec.mrun 2 0 ⟨id, 0⟩ [.ctorRange 0 1 [1, 2, 3], .ctorVal 1 4 7 9] (fun _ => none) = some (rs, y) ∧
    MSafeRun 2 0 ⟨id, 0⟩ [.ctorRange 0 1 [1, 2, 3], .ctorVal 1 4 7 9] (fun _ => none) ∧ y 0 = some ⟨1, .dyn 3, [1, 2, 3]⟩ ∧ y 1 ≠ none :=
  ⟨_, _, rfl, by simp [MSafeRun, MSafe, mstep, Sys.put], rfl, by decide⟩

/-! ## C48 (small_vector part) -/

theorem eqLoop_st (eqv : α → α → Bool) {C D : Ctx α} {h h' : Home} {k k' nx nx' : Nat} {g g' : List (Buf α)} {xs ys : List α}
    (ha : xs.length ≤ h.cap C.P.N) (hb : ys.length ≤ h'.cap D.P.N)
    (hl : xs.length = ys.length) : ∀ (f p : Nat), p + f = xs.length →
    eqLoop eqv (st C h k xs nx g) (st D h' k' ys nx' g') p f = some (all2 eqv (xs.drop p) (ys.drop p)) := by
  intro f
  induction f with
  | zero =>
    intro p hp
    simp [eqLoop, all2, List.drop_of_length_le (show xs.length ≤ p by omega),
      List.drop_of_length_le (show ys.length ≤ p by omega)]
  | succ f ih =>
    intro p hp
    have hx : p < xs.length := by omega
    have hy : p < ys.length := by omega
    simp only [eqLoop, at_st hx ha, at_st hy hb]
    rw [List.drop_eq_getElem_cons hx, List.drop_eq_getElem_cons hy]
    cases he : eqv xs[p] ys[p]
    · simp [all2, he]
    · simp [all2, he, ih (p+1) (by omega)]

/-- **C48, small_vector.** For elements with any `operator==`, `==` of vectors (also between different static capacities
and buffer kinds) reached by any history as in C05 is true iff they have the same size and their elements are equal one by
one, and `!=` is its negation. -/
theorem C48_small_vector_eq (eqv : α → α → Bool) (P Q : Params) (E : Elem α) (hN : 0 < P.N) (hR : P.R ≤ P.N + 1) (hN' : 0 < Q.N)
    (hR' : Q.R ≤ Q.N + 1) (h h' : Home) (xs ys : List α) (a b : St α)
    (ha : Reaches P E h xs a) (hb : Reaches Q E h' ys b) :
    ∃ r, eq eqv a b = some r ∧ ne eqv a b = some (!r) ∧ (r = true ↔ List.Forall₂ (fun x y => eqv x y = true) xs ys) := by
  obtain ⟨C, k, nx, g, rfl, hT, rfl, hG⟩ := reaches_st hN hR ha
  obtain ⟨D, k', nx', g', rfl, hT', rfl, hG'⟩ := reaches_st hN' hR' hb
  have he : eq eqv (st C h k xs nx g) (st D h' k' ys nx' g') = some (all2 eqv xs ys) := by
    simp only [eq, size_st]
    by_cases hl : xs.length = ys.length
    · simp only [hl, ne_eq, not_true, if_false]
      rw [← hl, eqLoop_st eqv hG.len hG'.len hl _ _ (by omega)]
      simp
    · simp [hl, all2_length hl]
  exact ⟨_, he, by simp only [ne, he, Option.map_some], all2_iff⟩

/-! ## C49 -/

/-- **C49 (partial).** Whenever `erase`, `pop_back` or `clear` leaves less than `RevertToStaticBelow` elements, the vector
is in its static buffer afterwards.

Missing: `resize`, which never goes back, see `C49_defect_resize_stays`. -/
theorem C49_erase_reverts_partial (P : Params) (E : Elem α) (hN : 0 < P.N) (hR : P.R ≤ P.N + 1) (h : Home) (xs : List α)
    (s : St α) (hr : Reaches P E h xs s) (op : Op α)
    (hop : op = .popBack ∨ op = .clear ∨ (∃ p, op = .erase p) ∨ (∃ f l, op = .eraseRange f l))
    (hs : Safe P.N P.R op h xs) (r : Reply α) (h' : Home) (xs' : List α) (hst : step P.N P.R E op h xs = some (r, h', xs'))
    (hexc : ∀ e, r ≠ .exc e) (hlt : xs'.length < P.R) :
    ∃ s', call P E op s = some (r, s') ∧ s'.v.isStatic = true := by
  obtain ⟨C, k, nx, g, rfl, hT, rfl, hG⟩ := reaches_st hN hR hr
  obtain ⟨k', nx', g', e1, e2⟩ := call_st E hG hT hs hst
  refine ⟨_, e1, ?_⟩
  simp only [st, isStatic_stB, decide_eq_true_eq]
  have hR0 : 0 < C.P.R := by omega
  have hch : ∀ d, d < C.P.R → d ≤ xs.length → choose C.P.N C.P.R d h = .stat := by
    intro d hd hdx
    have := hG.len
    cases h with
    | stat => simp only [choose, Home.cap] at this ⊢; rw [if_pos (by omega)]
    | dyn c => simp only [choose, Home.cap] at this ⊢; rw [if_pos (by omega), if_pos hd]
  have hle : ∀ f l : Nat, f ≤ l → (xs.take f ++ xs.drop l).length ≤ xs.length := by
    intro f l hfl; simp; omega
  rcases hop with rfl | rfl | ⟨p, rfl⟩ | ⟨f, l, rfl⟩
  · simp only [step, Option.bind_eq_bind, Option.bind_eq_some_iff] at hst
    obtain ⟨⟨r1, h1, x1⟩, h2, hst⟩ := hst
    simp only [Option.some.injEq, Prod.mk.injEq] at hst; obtain ⟨rfl, rfl, rfl⟩ := hst
    split at h2
    · simp only [Option.some.injEq, Prod.mk.injEq] at h2; obtain ⟨rfl, rfl, rfl⟩ := h2
      split
      · simp [hR0]
      · exact hch _ hlt (hle _ _ (by omega))
    · rename_i hb
      simp only [Option.some.injEq, Prod.mk.injEq] at h2; obtain ⟨rfl, rfl, rfl⟩ := h2
      have : xs = [] := by
        by_cases e : xs = []
        · exact e
        · have := List.length_pos_iff.mpr e
          omega
      exact absurd (by simp [this]) (hexc .outOfRange)
  · simp only [step, Option.some.injEq, Prod.mk.injEq] at hst; obtain ⟨rfl, rfl, rfl⟩ := hst
    simp [hR0]
  · simp only [step] at hst
    split at hst
    · simp only [Option.some.injEq, Prod.mk.injEq] at hst; obtain ⟨rfl, rfl, rfl⟩ := hst
      split
      · simp [hR0]
      · exact hch _ hlt (hle _ _ (by omega))
    · simp only [Option.some.injEq, Prod.mk.injEq] at hst; obtain ⟨rfl, rfl, rfl⟩ := hst
      exact absurd rfl (hexc _)
  · simp only [step] at hst
    split at hst
    · simp only [Option.some.injEq, Prod.mk.injEq] at hst; obtain ⟨rfl, rfl, rfl⟩ := hst
      split
      · simp [hR0]
      · exact hch _ hlt (hle _ _ (by omega))
    · simp only [Option.some.injEq, Prod.mk.injEq] at hst; obtain ⟨rfl, rfl, rfl⟩ := hst
      exact absurd rfl (hexc _)

/-- Defect: `resize` to less than `RevertToStaticBelow` elements leaves a heap vector on the heap, contrary to the
documentation (small_vector.hpp:84-88). -/
theorem C49_defect_resize_stays (P : Params) (E : Elem α) (hN : 0 < P.N) (hR : P.R ≤ P.N + 1) (c : Nat) (xs : List α)
    (s : St α) (hr : Reaches P E (.dyn c) xs s) (n : Nat) (hn : n ≤ xs.length) :
    ∃ s', call P E (.resize n) s = some (.done, s') ∧ s'.v.isStatic = false ∧ size s' = .ok n s' := by
  obtain ⟨C, k, nx, g, rfl, hT, rfl, hG⟩ := reaches_st hN hR hr
  obtain ⟨k', nx', g', e1, e2⟩ := resizeV_st E (d := n) (v := .val E.dflt) (a := E.dflt) hG hT rfl (Or.inr ⟨_, rfl⟩)
  have hl := hG.len
  simp only [Home.cap] at hl
  have hrs : reserved C.P.N C.P.R n (.dyn c) = .dyn c := by
    simp only [reserved, Home.cap, show n ≤ c by omega, if_true]
  rw [hrs] at e1 e2
  refine ⟨_, by simp only [call, exec, M.bind_apply, e1]; rfl, by simp [st], ?_⟩
  rw [size_st]
  congr 1
  simp; omega

end Itlib.SmallVector
