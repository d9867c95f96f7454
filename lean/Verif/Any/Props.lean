import Verif.Any.StepLemmas

/-!
# Properties C24 and C25: any

The specification is in `Spec.lean`: every `any` has an allocator and is empty or holds a typed value.
-/
namespace Itlib.Any
open Itlib
variable {A V : Type} (T : Types V)

/-- **C24.** Over every history of calls on any number of anys that violates no precondition, every reply (values and types
seen, exceptions) is the one the specification gives, and there is no undefined behaviour. In particular copies are
independent, a moved-from any is empty, casts succeed exactly for the stored type, and copying a value that cannot be copied
throws. Missing (`Spec.Safe`): storing an lvalue, copy self-assignment of a non-empty any, `emplace` from the own value,
types of 4 GiB or more, and moving between different allocators; for these the `defect` theorems below show that the code
violates the property. -/
theorem C24_any_holds_last_value_partial (ops : List (Op A V)) (rs : List (Reply A V)) (y : Spec.Sys A V)
    (hsafe : Spec.SafeRun T ops Spec.init) (hrun : Spec.run T ops Spec.init = some (rs, y)) :
    ∃ w, run T ops World.init = some (rs, w) := by
  obtain ⟨w, e, _⟩ := run_refines Inv.init hsafe hrun
  exact ⟨w, e⟩

/-- **C25.** Over every such history, also with allocations and constructors that throw: no block is released twice, every
release names a block, allocator, size and alignment as they were allocated, every block not yet released is held by an any
of its own with that allocator, and so once all anys are empty or destroyed everything was released. -/
theorem C25_any_allocations_paired_partial (ops : List (Op A V)) (rs : List (Reply A V)) (y : Spec.Sys A V)
    (hsafe : Spec.SafeRun T ops Spec.init) (hrun : Spec.run T ops Spec.init = some (rs, y)) :
    ∃ w, run T ops World.init = some (rs, w) ∧
      (w.allocd.map Ev.block).Nodup ∧ (w.freed.map Ev.block).Nodup ∧ (∀ e ∈ w.freed, e ∈ w.allocd) ∧
      (∃ owner : Ev A → Nat,
        (∀ e ∈ w.allocd, e ∉ w.freed → ∃ ty v, y.any (owner e) = some (e.alloc, some (ty, v)) ∧
          e.size = T.size ty ∧ e.align = T.align ty) ∧
        (∀ e ∈ w.allocd, e ∉ w.freed → ∀ e' ∈ w.allocd, e' ∉ w.freed → owner e = owner e' → e = e')) ∧
      ((∀ i a c, y.any i = some (a, c) → c = none) → w.freed.Perm w.allocd) := by
  obtain ⟨w, e, h⟩ := run_refines Inv.init hsafe hrun
  have own : ∀ e ∈ w.allocd, e ∉ w.freed → ∃ i ty v, y.any i = some (e.alloc, some (ty, v)) ∧
      e.size = T.size ty ∧ e.align = T.align ty ∧ w.any i = some ⟨e.alloc, some e.block⟩ := by
    intro e he hf
    have hl := (h.live e he).resolve_left hf
    obtain ⟨_, i, a, hi⟩ := h.used _ hl
    have ho := h.obj i
    rcases hy : y.any i with _ | ⟨b, _ | ⟨ty, v⟩⟩ <;> simp only [hy, Shows] at ho
    · rw [hi] at ho; cases ho
    · rw [hi] at ho; simp at ho
    · obtain ⟨p, e1, e2, e3⟩ := ho
      rw [hi] at e1
      simp only [Option.some.injEq, Obj.mk.injEq] at e1
      obtain ⟨rfl, rfl⟩ := e1
      have : e = ⟨e.block, a, T.size ty, T.align ty⟩ := List.inj_on_of_nodup_map h.nodupA he e3 rfl
      have hal : e.alloc = a := by rw [this]
      refine ⟨i, ty, v, ?_, by rw [this], by rw [this], ?_⟩
      · rw [hal]; exact hy
      · rw [hal]; exact hi
  refine ⟨w, e, h.nodupA, h.nodupF, h.sub, ?_, ?_⟩
  · classical
    refine ⟨fun e => if he : e ∈ w.allocd ∧ e ∉ w.freed then (own e he.1 he.2).choose else 0, ?_, ?_⟩
    · intro e he hf
      simp only [dif_pos (And.intro he hf)]
      obtain ⟨ty, v, h1, h2, h3, _⟩ := (own e he hf).choose_spec
      exact ⟨ty, v, h1, h2, h3⟩
    · intro e he hf e' he' hf' heq
      simp only [dif_pos (And.intro he hf), dif_pos (And.intro he' hf')] at heq
      obtain ⟨_, _, _, _, _, h4⟩ := (own e he hf).choose_spec
      obtain ⟨_, _, _, _, _, h4'⟩ := (own e' he' hf').choose_spec
      rw [heq, h4'] at h4
      simp only [Option.some.injEq, Obj.mk.injEq] at h4
      exact List.inj_on_of_nodup_map h.nodupA he he' h4.2.symm
  · intro hall
    refine (List.perm_ext_iff_of_nodup (List.Nodup.of_map _ h.nodupF) (List.Nodup.of_map _ h.nodupA)).2 ?_
    intro e
    refine ⟨h.sub e, fun he => ?_⟩
    by_contra hf
    obtain ⟨i, ty, v, hy, _⟩ := own e he hf
    have := hall i _ _ hy
    cases this

/-- types for the examples: type 0 can be copied, type 1 cannot -/
def exT : Types Nat := ⟨fun t => 16 + 8 * t, fun _ => 8, 16, 8, fun t => t == 0, fun _ _ => 0⟩

/-- a history for the examples -/
def exOps : List (Op Nat Nat) :=
  [.ctorEmpty 0 100, .emplace 0 0 5 .fine, .copyCtor 1 0 200 .fine, .setThrough 1 0 6, .castPtr 0 0, .castPtr 1 0,
   .castPtr 1 1, .emplace 0 1 9 .throws, .hasValue 0, .emplace 0 1 9 .fine, .copyAssign 1 0 .fine, .hasValue 1, .moveCtor 2 0,
   .hasValue 0, .typeOf 2, .castMove 2 1, .castPtr 2 1, .emplace 1 0 7 .badAlloc, .dtor 0, .dtor 1, .dtor 2]

example : ∃ rs y, Spec.SafeRun exT exOps Spec.init ∧ Spec.run exT exOps Spec.init = some (rs, y) ∧
    rs = [.done, .done, .done, .bool true, .ptr (some 5), .ptr (some 6), .ptr none, .exc .element, .bool false, .done,
      .exc .badCast, .bool false, .done, .bool false, .type (some 1), .val 9, .ptr (some 0), .exc .badAlloc, .done, .done,
      .done] ∧ (∀ i a c, y.any i = some (a, c) → c = none) := by
  refine ⟨_, _, ?_, rfl, rfl, ?_⟩
  · simp [exOps, exT, Spec.SafeRun, Spec.Safe, Spec.step, Spec.stored, Spec.copied, Spec.init, Spec.Sys.put,
      Function.update_apply, Spec.reply]
  · intro i a c h
    by_cases h0 : i = 0 <;> by_cases h1 : i = 1 <;> by_cases h2 : i = 2 <;>
      simp_all [Spec.Sys.put, Spec.init, Function.update_apply]

/-! ## Defects -/

/-- Copy-assigning a non-empty any to itself empties it. -/
theorem C24_any_copy_self_assign_defect (ops : List (Op A V)) (rs : List (Reply A V)) (y : Spec.Sys A V)
    (hsafe : Spec.SafeRun T ops Spec.init) (hrun : Spec.run T ops Spec.init = some (rs, y))
    (i : Nat) (a : A) (c : Nat × V) (hi : y.any i = some (a, some c)) (f : Fate) :
    (run T (ops ++ [.copyAssign i i f, .hasValue i]) World.init).map Prod.fst = some (rs ++ [.done, .bool false]) := by
  obtain ⟨w, e, h⟩ := run_refines Inv.init hsafe hrun
  obtain ⟨w1, r1, i1, e1⟩ := reset_inv h hi
  rw [run_append, e]
  simp [run, call, exec, copyAssign, copyFrom, r1, rd, e1, hasValue]

/-- Assigning a variable stores a reference: later changes of the variable change the any, and using the any after the end
of the variable is undefined behaviour. -/
theorem C24_any_assign_lvalue_defect (ops : List (Op A V)) (rs : List (Reply A V)) (y : Spec.Sys A V)
    (hsafe : Spec.SafeRun T ops Spec.init) (hrun : Spec.run T ops Spec.init = some (rs, y))
    (hsz : T.refSize < 2 ^ 32) (i k : Nat) (a : A) (c : Option (Nat × V)) (hi : y.any i = some (a, c))
    (ty : Nat) (v v' : V) (hk : y.vars k = some (ty, v)) :
    (run T (ops ++ [.assignVar i k .fine, .castPtr i ty, .setVar k ty v', .castPtr i ty]) World.init).map Prod.fst =
      some (rs ++ [.done, .ptr (some v), .done, .ptr (some v')]) ∧
    run T (ops ++ [.assignVar i k .fine, .endVar k, .castPtr i ty]) World.init = none := by
  obtain ⟨w, e, h⟩ := run_refines Inv.init hsafe hrun
  obtain ⟨w1, r1, i1, e1⟩ := reset_inv h hi
  have hv : w.vars k = some (ty, v) := by rw [h.vars, hk]
  have hv1 : w1.vars k = some (ty, v) := by
    rw [i1.vars]; exact hk
  have h1 : T.refSize % 4294967296 = T.refSize := Nat.mod_eq_of_lt hsz
  constructor <;> rw [run_append, e] <;>
    simp [run, call, exec, emplaceRef, r1, rd, e1, hv, hv1, h1, allocateBytes, setBlock, construct, rdBlock, wrBlock, setHeader,
      castPtr, typeOf, content, Content.ty, deref, rdVar, setVar, endVar]

/-- `a.emplace<T>(*any_cast<T>(&a))` is undefined behaviour whenever `a` holds a value. -/
theorem C24_any_emplace_own_defect (ops : List (Op A V)) (rs : List (Reply A V)) (y : Spec.Sys A V)
    (hsafe : Spec.SafeRun T ops Spec.init) (hrun : Spec.run T ops Spec.init = some (rs, y))
    (i : Nat) (a : A) (ty : Nat) (v : V) (hi : y.any i = some (a, some (ty, v))) :
    run T (ops ++ [.emplaceOwn i ty]) World.init = none := by
  obtain ⟨w, e, h⟩ := run_refines Inv.init hsafe hrun
  obtain ⟨p, e1, e2, e3⟩ := h.full hi
  have hr : reset i w = .ok () (dropped w i a p (T.size ty) (T.align ty)) := by
    simp [reset, rd, e1, header, rdBlock, e2, destroyBlock, wrBlock, freeBlock, deallocateBytes, setBlock, dropped]
  have hp : p ≠ w.next := by rintro rfl; rw [h.fresh_heap] at e2; cases e2
  rw [run_append, e]
  simp [run, call, exec, emplaceOwn, rd, e1, content, rdBlock, e2, hr, allocateBytes, setBlock, dropped,
    Function.update_of_ne hp]

/-- A stored type whose block takes 4 GiB or more gets a block that is too small: its size is cut to 32 bits. -/
theorem C24_any_huge_type_defect (ops : List (Op A V)) (rs : List (Reply A V)) (y : Spec.Sys A V)
    (hsafe : Spec.SafeRun T ops Spec.init) (hrun : Spec.run T ops Spec.init = some (rs, y))
    (i : Nat) (a : A) (c : Option (Nat × V)) (hi : y.any i = some (a, c)) (ty : Nat) (v : V) (hty : 2 ^ 32 ≤ T.size ty) :
    run T (ops ++ [.emplace i ty v .fine]) World.init = none := by
  obtain ⟨w, e, h⟩ := run_refines Inv.init hsafe hrun
  obtain ⟨w1, r1, i1, e1⟩ := reset_inv h hi
  have h1 : ¬ T.size ty ≤ T.size ty % 4294967296 := by
    have := Nat.mod_lt (T.size ty) (show 4294967296 > 0 by decide)
    omega
  rw [run_append, e]
  simp [run, call, exec, emplace, r1, rd, e1, allocateBytes, setBlock, construct, rdBlock, h1]

/-- Move assignment takes over the block but keeps its own allocator: the block is released with an allocator that did not
allocate it. -/
theorem C25_any_move_assign_defect (ops : List (Op A V)) (rs : List (Reply A V)) (y : Spec.Sys A V)
    (hsafe : Spec.SafeRun T ops Spec.init) (hrun : Spec.run T ops Spec.init = some (rs, y))
    (i j : Nat) (a b : A) (hab : a ≠ b) (c : Option (Nat × V)) (d : Nat × V) (hi : y.any i = some (a, c))
    (hj : y.any j = some (b, some d)) :
    ∃ w, run T (ops ++ [.moveAssign i j, .reset i]) World.init = some (rs ++ [.done, .done], w) ∧
      ∃ e ∈ w.freed, ∃ e' ∈ w.allocd, e.block = e'.block ∧ e.alloc = a ∧ e'.alloc = b := by
  obtain ⟨w, e, h⟩ := run_refines Inv.init hsafe hrun
  obtain ⟨w1, r1, i1, e1⟩ := reset_inv h hi
  have hij : i ≠ j := by rintro rfl; rw [hi] at hj; simp only [Option.some.injEq, Prod.mk.injEq] at hj; exact hab hj.1
  have hj' : (y.put i (some (a, none))).any j = some (b, some d) := by
    simp [Spec.Sys.put, Function.update_of_ne (Ne.symm hij), hj]
  obtain ⟨ty, v⟩ := d
  obtain ⟨p, e2, e3, e4⟩ := i1.full hj'
  refine ⟨dropped ({ w1 with
    any := Function.update (Function.update w1.any i (some ⟨a, some p⟩)) j (some ⟨b, none⟩) })
      i a p (T.size ty) (T.align ty), ?_, ⟨p, a, T.size ty, T.align ty⟩, ?_, _, e4, rfl, rfl, rfl⟩
  · have c1 : call T (.moveAssign i j) w = some (.done, { w1 with
        any := Function.update (Function.update w1.any i (some ⟨a, some p⟩)) j (some ⟨b, none⟩) }) := by
      simp [call, exec, moveAssign, hij, r1, rd, e1, e2, setBlock, Function.update_of_ne (Ne.symm hij)]
    rw [run_append, e]
    simp only [Option.bind_some, run, c1, Option.bind_eq_bind]
    simp [call, exec, rd, setBlock, Function.update_of_ne hij, reset, header, rdBlock, e3, destroyBlock, wrBlock,
      freeBlock, deallocateBytes, dropped]
  · exact List.mem_cons_self

/-- A history after which the hypotheses of all the defects but the one about huge types hold. -/
example : ∃ rs y, Spec.SafeRun exT [.ctorVal 0 100 0 5 .fine, .ctorVal 1 200 0 6 .fine, .setVar 0 0 7] (Spec.init : Spec.Sys Nat Nat) ∧
    Spec.run exT [.ctorVal 0 100 0 5 .fine, .ctorVal 1 200 0 6 .fine, .setVar 0 0 7] (Spec.init : Spec.Sys Nat Nat) =
      some (rs, y) ∧ exT.refSize < 2 ^ 32 ∧
    y.any 0 = some (100, some (0, 5)) ∧ y.any 1 = some (200, some (0, 6)) ∧ y.vars 0 = some (0, 7) := by
  refine ⟨_, _, ?_, rfl, by decide, rfl, rfl, rfl⟩
  simp [exT, Spec.SafeRun, Spec.Safe]

example : ∃ rs y, Spec.SafeRun { exT with size := fun _ => 2 ^ 33 } [.ctorEmpty 0 100] (Spec.init : Spec.Sys Nat Nat) ∧
    Spec.run { exT with size := fun _ => 2 ^ 33 } [.ctorEmpty 0 100] (Spec.init : Spec.Sys Nat Nat) = some (rs, y) ∧
    y.any 0 = some (100, none) := by
  refine ⟨_, _, ?_, rfl, rfl⟩
  simp [Spec.SafeRun, Spec.Safe]

end Itlib.Any
