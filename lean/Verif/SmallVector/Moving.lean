import Verif.SmallVector.Props
import Verif.SmallVector.MoveStep

/-!
# C75: programs with `small_vector` in which moving elements throws

At every call, the move of an element (and, as in C58, any other construction of an element, and any allocation) may throw
at any point; the program catches the exceptions and goes on. What a throwing move leaves in its source is up to the element
type (`tr`). Which exceptions a vector survives, what it holds afterwards and which heap blocks are lost is said by
`Spec.vstep` (MoveSpec.lean).
-/
namespace Itlib.SmallVector
open Itlib Spec
variable {α : Type}

/-- memory without the blocks nobody owns -/
theorem mrep_forget {P : Params} {L : Nat → Option (Block α)} {y : Sys α} {blk : Nat → Nat} {m : Mem α} (hM : MRep P L y blk m)
    {ks : List Nat} (hk : ∀ k, (L k).isSome ↔ k ∈ ks) :
    MRep P (fun _ => none) y blk { m with heap := fun k => if k ∈ ks then none else m.heap k } := by
  have hne : ∀ i v c, y i = some v → v.home = .dyn c → blk i ∉ ks := by
    intro i v c hi hc h
    rw [← hk] at h
    obtain ⟨b, hb⟩ := Option.isSome_iff_exists.mp h
    exact (hM.keep _ b hb).2 i v c hi hc rfl
  refine ⟨hM.vec, ?_, ?_, by simp, hM.inj, ?_, hM.raw, hM.ct, hM.at', hM.len⟩
  · intro i v c hi hc
    simp only [if_neg (hne i v c hi hc)]
    exact hM.own i v c hi hc
  · intro k b hb
    simp only at hb
    split at hb
    · simp at hb
    · rename_i hkk
      rcases hM.only k b hb with h | h
      · exact Or.inl h
      · rw [← hk, h] at hkk
        simp at hkk
  · intro k h
    simp only
    split
    · rfl
    · exact hM.free k h

/-- **C75 (partial: the calls excluded by `MSafe`, as in C05).** Programs with any number of vectors, with throw points for
moves, other constructions and allocations at every call. As long as no exception is fatal there is no undefined behaviour;
the replies (results or exceptions) are those of the specification; at the end the existing vectors are those of the
specification with the specified elements; there are exactly the lost blocks `ls` of the specification, with the elements it
says; and apart from these memory is `Clean`. -/
theorem C75_small_vector_moves_partial (P : Params) (E : Elem α) (tr : α → α) (hN : 0 < P.N) (hR : P.R ≤ P.N + 1)
    (ts : List (VOp α)) (rs : List (Reply α)) (ls : List (Leak α)) (y : Sys α)
    (hspec : Spec.vrun P.N P.R E tr ts (fun _ => none) = some (rs, ls, y))
    (hsafe : VSafeRun P.N P.R E tr ts (fun _ => none)) :
    ∃ m ks, vrun P E tr ts Mem.init = some (rs, m) ∧ (∀ i, m.vec i = none ↔ y i = none) ∧
      (∀ i v, y i = some v → ∃ u, m.vec i = some u ∧ u.al = v.al ∧ u.cap = v.home.cap P.N ∧
        u.isStatic = decide (v.home = .stat) ∧ size (m.view u) = .ok v.xs.length (m.view u) ∧
        ∀ k (hk : k < v.xs.length), at_ k (m.view u) = .ok v.xs[k] (m.view u)) ∧
      ks.Nodup ∧ List.Forall₂ (fun k l => ∃ B, m.heap k = some B ∧ B.al = l.al ∧ B.buf.cap = l.cap ∧
        objects B.buf = l.xs) ks ls ∧
      Clean { m with heap := fun k => if k ∈ ks then none else m.heap k } := by
  obtain ⟨m, blk, L, h1, hM, hL⟩ := vrun_mrep E tr hN hR ts (init_mrep P) hsafe hspec
  obtain ⟨ks, h2, h3, h4⟩ := hL [] ⟨[], List.nodup_nil, by simp, .nil⟩
  refine ⟨m, ks, h1, fun i => by rw [hM.vec i]; simp, fun i v hv => ?_, h2, ?_, mrep_clean (mrep_forget hM h3)⟩
  · refine ⟨vecRep P i (blk i) v, by rw [hM.vec i, hv]; rfl, rfl, rfl, ?_, ?_, ?_⟩
    · cases hh : v.home <;> simp [vecRep, Vec.isStatic, hh, loc]
    · rw [view_st hM hv, size_st]
    · intro k hk
      rw [view_st hM hv]
      exact at_st hk (hM.len i v hv)
  · rw [List.nil_append] at h4
    exact h4.imp fun k l ⟨B, hB, h⟩ => ⟨B, (hM.keep k B hB).1, h⟩

/-- Vectors of static capacity 2; elements are numbers, moved-from is 0, a move that throws leaves 100 more in the source.
Moves throw in `push_back` on the way to the heap, in `insert` and `reserve` on the way to another block, in `shrink_to_fit`
and at the start of an `erase` that goes back to the static buffer; the vectors are used afterwards. -/
def demoVOps : List (VOp Nat) :=
  [⟨.ctorRange 0 4 [1, 2], none, none, none⟩, ⟨.call 0 (.pushBack (.val 3)), none, none, some 1⟩, ⟨.call 0 .forward, none, none, some 0⟩,
   ⟨.call 0 (.pushBack (.val 3)), none, some 0, some 0⟩, ⟨.call 0 (.pushBack (.val 3)), none, some 1, some 2⟩,
   ⟨.call 0 .forward, none, none, none⟩, ⟨.call 0 (.insert 1 (.val 9)), none, none, some 0⟩, ⟨.call 0 .forward, none, none, none⟩,
   ⟨.call 0 (.reserve 9), none, none, some 2⟩, ⟨.call 0 (.reserve 8), none, none, none⟩, ⟨.call 0 (.pushBack (.val 5)), some 1, none, some 0⟩,
   ⟨.call 0 .forward, none, none, none⟩, ⟨.call 0 .shrinkToFit, none, none, some 3⟩, ⟨.call 0 .forward, none, none, none⟩,
   ⟨.call 0 (.eraseRange 1 3), none, none, some 0⟩, ⟨.call 0 .forward, none, none, none⟩, ⟨.moveCtor 1 0, none, none, some 0⟩,
   ⟨.call 1 .forward, none, none, none⟩, ⟨.dtor 0, none, none, some 0⟩, ⟨.dtor 1, none, none, none⟩]

example : (Spec.vrun 2 2 ⟨fun _ => 0, 0⟩ (· + 100) demoVOps (fun _ => none)).map (fun p => (p.1, p.2.1)) =
    some ([.done, .exc .element, .elems [0, 102], .exc .badAlloc, .done, .elems [0, 102, 3], .exc .element, .elems [100, 102, 3],
      .exc .element, .done, .done, .elems [0, 0, 103, 5], .exc .element, .elems [0, 0, 103], .exc .element, .elems [100, 0, 103],
      .done, .elems [100, 0, 103], .done, .done], [⟨4, 3, [1]⟩, ⟨4, 5, []⟩, ⟨4, 12, [100, 102]⟩, ⟨4, 8, [105]⟩]) ∧
    VSafeRun 2 2 ⟨fun _ => 0, 0⟩ (· + 100) demoVOps (fun _ => none) := by
  refine ⟨by decide +kernel, ?_⟩
  simp [demoVOps, VSafeRun, MSafe, Safe, Stable, vstep, mtstep, tstep, fault, made, allocs, allocFails, mfault, cmoves, vmoves, insMoves,
    eraMoves, tornStep, torn, mstep, step, Sys.put, choose, growTo, argVal, moves, Home.cap, reserved]

/-- **C75, fatal exceptions.** If the specification has no say although the preconditions of the call hold, then
* a move constructor or a move assignment ends the program (`std::terminate`);
* a member function or a copy assignment throws, and to destroy its vector is undefined behaviour or leaves an object behind in
  it that is never destroyed;
* a constructor, which destroys the vector when it is left by an exception, has undefined behaviour. -/
theorem C75_fatal_call (P : Params) (E : Elem α) (tr : α → α) (hN : 0 < P.N) (hR : P.R ≤ P.N + 1)
    (ts : List (VOp α)) (rs : List (Reply α)) (ls : List (Leak α)) (y : Sys α) (m : Mem α)
    (hspec : Spec.vrun P.N P.R E tr ts (fun _ => none) = some (rs, ls, y))
    (hsafe : VSafeRun P.N P.R E tr ts (fun _ => none)) (hm : vrun P E tr ts Mem.init = some (rs, m))
    (t : VOp α) (hs : MSafe P.N P.R t.op y) (hpre : (mstep P.N P.R E t.op y).isSome) (hno : vstep P.N P.R E tr t y = none) :
    match t.op with
    | .moveCtor _ _ | .moveAssign _ _ => vcall P E tr t m = .terminated
    | .call i _ | .copyAssign i _ => ∃ e m', vcall P E tr t m = .ret (.exc e) m' ∧
        (destruct i m' = .ub ∨ ∀ m'', destruct i m' = .ok () m'' → ¬ ∀ b ∈ m''.graves, ∀ p, b.cells p = .raw)
    | _ => vcall P E tr t m = .ub := by
  obtain ⟨m1, blk, L, h1, hM, -⟩ := vrun_mrep E tr hN hR ts (init_mrep P) hsafe hspec
  rw [hm] at h1
  simp only [Option.some.injEq, Prod.mk.injEq, true_and] at h1
  subst h1
  obtain ⟨r, hr⟩ := Option.isSome_iff_exists.mp hpre
  have := vcall_mrep E tr hN hR hM hs hr
  rw [hno] at this
  obtain ⟨op, c, a, mm⟩ := t
  cases op <;> exact this

/-- `small_vector<T, 4> v{1, 2, 3}`: `v.erase(v.begin())` throws while it moves the second element down. `w{1, 2, 3}` with
static capacity 2 and reverting below 3: `w.erase(w.begin() + 1)` throws after a move to the static buffer. -/
example : ∃ rs ls y rs' ls' y',
    Spec.vrun 4 0 ⟨fun _ => 0, 0⟩ (· + 100) [⟨.ctorRange 0 4 [1, 2, 3], none, none, none⟩] (fun _ => none) = some (rs, ls, y) ∧
    VSafeRun 4 0 ⟨fun _ => 0, 0⟩ (· + 100) [⟨.ctorRange 0 4 [1, 2, 3], none, none, none⟩] (fun _ => none) ∧
    MSafe 4 0 (.call 0 (.erase 0)) y ∧ (mstep 4 0 ⟨fun _ => 0, 0⟩ (.call 0 (.erase 0)) y).isSome ∧
    vstep 4 0 ⟨fun _ => 0, 0⟩ (· + 100) ⟨.call 0 (.erase 0), none, none, some 0⟩ y = none ∧
    Spec.vrun 2 3 ⟨fun _ => 0, 0⟩ (· + 100) [⟨.ctorRange 0 4 [1, 2, 3], none, none, none⟩] (fun _ => none) = some (rs', ls', y') ∧
    VSafeRun 2 3 ⟨fun _ => 0, 0⟩ (· + 100) [⟨.ctorRange 0 4 [1, 2, 3], none, none, none⟩] (fun _ => none) ∧
    MSafe 2 3 (.call 0 (.erase 1)) y' ∧ (mstep 2 3 ⟨fun _ => 0, 0⟩ (.call 0 (.erase 1)) y').isSome ∧
    vstep 2 3 ⟨fun _ => 0, 0⟩ (· + 100) ⟨.call 0 (.erase 1), none, none, some 1⟩ y' = none := by
  refine ⟨_, _, _, _, _, _, rfl, ?_, ?_, ?_, ?_, rfl, ?_, ?_, ?_, ?_⟩ <;>
  simp [VSafeRun, MSafe, Safe, vstep, mtstep, fault, allocs, allocFails, mfault, cmoves, vmoves, eraMoves, tornStep,
    mstep, step, Sys.put, choose, moves]

/-- **C75 (defect): the move constructor and the move assignment are `noexcept`, whatever the elements are.** For all vectors
reached by any program: if the source has its elements in the static buffer and moving one of them throws, the program ends. -/
theorem C75_noexcept_defect (P : Params) (E : Elem α) (tr : α → α) (hN : 0 < P.N) (hR : P.R ≤ P.N + 1)
    (ts : List (VOp α)) (rs : List (Reply α)) (ls : List (Leak α)) (y : Sys α) (m : Mem α)
    (hspec : Spec.vrun P.N P.R E tr ts (fun _ => none) = some (rs, ls, y))
    (hsafe : VSafeRun P.N P.R E tr ts (fun _ => none)) (hm : vrun P E tr ts Mem.init = some (rs, m))
    (i j k : Nat) (w : V α) (hw : y j = some w) (hst : w.home = .stat) (hk : k < w.xs.length) (hne : i ≠ j) (c a : Option Nat) :
    (y i = none → vcall P E tr ⟨.moveCtor i j, c, a, some k⟩ m = .terminated) ∧
    ((y i).isSome → vcall P E tr ⟨.moveAssign i j, c, a, some k⟩ m = .terminated) := by
  constructor
  · intro hi
    refine C75_fatal_call P E tr hN hR ts rs ls y m hspec hsafe hm ⟨.moveCtor i j, c, a, some k⟩ trivial ?_ ?_
    · simp [mstep, hw, hi]
    · simp [vstep, mstep, hw, hi, allocFails, mfault, cmoves, hst, hne, hk]
  · intro hi
    obtain ⟨v, hi⟩ := Option.isSome_iff_exists.mp hi
    refine C75_fatal_call P E tr hN hR ts rs ls y m hspec hsafe hm ⟨.moveAssign i j, c, a, some k⟩ trivial ?_ ?_
    · simp [mstep, hw, hi, hne]
    · simp [vstep, mstep, hw, hi, allocFails, mfault, cmoves, hst, hne, hk]

example : ∃ rs ls y, Spec.vrun 4 0 ⟨fun _ => 0, 0⟩ (· + 100) [⟨.ctorRange 0 4 [1, 2, 3], none, none, none⟩, ⟨.ctor 1 4, none, none, none⟩]
      (fun _ => none) = some (rs, ls, y) ∧
    VSafeRun 4 0 ⟨fun _ => 0, 0⟩ (· + 100) [⟨.ctorRange 0 4 [1, 2, 3], none, none, none⟩, ⟨.ctor 1 4, none, none, none⟩] (fun _ => none) ∧
    y 0 = some ⟨4, .stat, [1, 2, 3]⟩ ∧ (y 1).isSome ∧ y 2 = none := by
  refine ⟨_, _, _, rfl, ?_, rfl, rfl, rfl⟩
  simp [VSafeRun, MSafe, vstep, mtstep, fault, allocFails, mfault, mstep, Sys.put, choose]

/-- for how many elements a member function makes room -/
def room (op : Op α) (len : Nat) : Option Nat :=
  match op with
  | .pushBack _ | .emplaceBack _ | .insert _ _ => some (len + 1)
  | .insertN _ n _ => some (len + n)
  | .insertRange _ ys => some (len + ys.length)
  | .resize n | .resizeV n _ | .reserve n => some n
  | _ => none

/-- **C75, growth.** If a function that adds elements or reserves room needs a larger buffer, an exception from a move is
survived: the vector keeps its buffer, its size and the elements not yet moved. But the new block is lost, with the elements
moved so far. -/
theorem C75_growth (N R : Nat) (E : Elem α) (tr : α → α) (t : VOp α) (y : Sys α) (i d k : Nat) (op : Op α) (v : V α) (hop : t.op = .call i op)
    (hv : y i = some v) (hd : room op v.xs.length = some d) (hc : v.home.cap N < d) (hpre : (mstep N R E t.op y).isSome)
    (hm : t.m = some k) (hk : k < cmoves N R t.op y) (ha : t.a ≠ some 0) :
    ∃ c ys, vstep N R E tr t y = some (.exc .element, [⟨v.al, c, v.xs.take k⟩], y.put i (some ⟨v.al, v.home, ys⟩)) ∧
      ys.length = v.xs.length ∧ ys.take k = (v.xs.take k).map E.mv ∧ ys.drop (k+1) = v.xs.drop (k+1) := by
  obtain ⟨op', c, a, mm⟩ := t
  simp only at hop hm hk ha hpre
  subst hop hm
  obtain ⟨r, hr⟩ := Option.isSome_iff_exists.mp hpre
  have hmv : moves N R d v.home := by
    cases hh : v.home with
    | stat => rw [hh] at hc; exact hc
    | dyn c => rw [hh] at hc; exact Or.inl hc
  obtain ⟨c', hch⟩ : ∃ c', choose N R d v.home = .dyn c' := by
    cases hh : v.home with
    | stat => rw [hh] at hc; simp only [Home.cap] at hc; exact ⟨d, by simp only [choose]; rw [if_neg (by omega)]⟩
    | dyn c => rw [hh] at hc; simp only [Home.cap] at hc; exact ⟨growTo d d c, by simp only [choose]; rw [if_neg (by omega)]⟩
  have hf : allocFails N ⟨.call i op, c, a, some k⟩ y = false := by
    simp only [allocFails, hv, Bool.and_eq_false_iff]
    right
    simpa using ha
  have hlen : k < v.xs.length := by
    refine Nat.lt_of_lt_of_le hk ?_
    simp only [cmoves, hv]
    cases op <;> simp only [room, reduceCtorEq] at hd <;> simp only [vmoves, insMoves] <;> (repeat' split) <;> omega
  refine ⟨c', torn E tr k v.xs, ?_, torn_length .., ?_, ?_⟩
  · have ht : tornStep N R E tr k op v.home v.xs = some (v.home, torn E tr k v.xs, [(c', v.xs.take k)]) := by
      cases op <;> simp only [room, reduceCtorEq, Option.some.injEq] at hd <;> simp only [tornStep, hd, if_pos hmv, hch]
    simp only [vstep, hr, Option.bind_eq_bind, Option.bind_some, hf, mfault, if_pos hk, hv, ht, List.map_cons, List.map_nil,
      Bool.false_eq_true, if_false]
  · simp only [torn]
    rw [List.take_left' (by simp; omega)]
  · simp only [torn]
    rw [show v.xs.drop k = v.xs[k] :: v.xs.drop (k+1) from List.drop_eq_getElem_cons hlen]
    simp only
    rw [List.append_cons, List.drop_left' (by simp; omega)]

example : ∃ y : Sys Nat, y 0 = some ⟨4, .stat, [1, 2]⟩ ∧ room (.pushBack (.val 3)) 2 = some 3 ∧ Home.stat.cap 2 < 3 ∧
    (mstep 2 2 ⟨fun _ => 0, 0⟩ (.call 0 (.pushBack (.val 3))) y).isSome ∧ 1 < cmoves 2 2 (.call 0 (.pushBack (.val 3))) y := by
  refine ⟨fun i => if i = 0 then some ⟨4, .stat, [1, 2]⟩ else none, rfl, rfl, by decide, ?_, by decide⟩
  simp [mstep, step, argVal]

/-- **C75, in place.** If the elements stay in their buffer, an exception from a move is always fatal. -/
theorem C75_in_place_fatal (N R : Nat) (E : Elem α) (tr : α → α) (t : VOp α) (y : Sys α) (i k : Nat) (op : Op α) (v : V α)
    (hop : t.op = .call i op) (hv : y i = some v) (ha : t.a ≠ some 0) (hm : t.m = some k) (hk : k < cmoves N R t.op y)
    (h : (∃ d, room op v.xs.length = some d ∧ ¬ moves N R d v.home) ∨
      (op = .popBack ∧ ¬ moves N R (v.xs.length - 1) v.home) ∨ (∃ pos, op = .erase pos ∧ ¬ moves N R (v.xs.length - 1) v.home) ∨
      ∃ first last, op = .eraseRange first last ∧ ¬ moves N R (v.xs.length - (last - first).toNat) v.home) :
    vstep N R E tr t y = none := by
  obtain ⟨op', c, a, mm⟩ := t
  simp only at hop hm hk ha
  subst hop hm
  have hf : allocFails N ⟨.call i op, c, a, some k⟩ y = false := by
    simp only [allocFails, hv, Bool.and_eq_false_iff]
    right
    simpa using ha
  have ht : tornStep N R E tr k op v.home v.xs = none := by
    rcases h with ⟨d, hd, h⟩ | ⟨rfl, h⟩ | ⟨pos, rfl, h⟩ | ⟨first, last, rfl, h⟩
    · cases op <;> simp only [room, reduceCtorEq, Option.some.injEq] at hd <;> simp only [tornStep, hd, if_neg h]
    · simp only [tornStep]
      rw [if_neg]
      rintro ⟨h1, _⟩
      exact h (by convert h1 using 2; omega)
    · simp only [tornStep]
      rw [if_neg]
      rintro ⟨h1, _⟩
      exact h (by convert h1 using 2; omega)
    · simp only [tornStep]
      rw [if_neg]
      rintro ⟨h1, _⟩
      exact h h1
  simp only [vstep, hf, mfault, if_pos hk, hv, ht, Option.bind_eq_bind, Option.bind_some, Option.bind_none, Bool.false_eq_true, if_false]
  cases mstep N R E (.call i op) y <;> rfl

/-- `insert` into `small_vector<T, 4> v{1, 2, 3}` before the last element, when moving that one throws -/
example : ∃ y : Sys Nat, y 0 = some ⟨4, .stat, [1, 2, 3]⟩ ∧ 0 < cmoves 4 0 (.call 0 (.insert 2 (.val 9))) y ∧
    room (.insert 2 (.val 9)) 3 = some 4 ∧ ¬ moves 4 0 4 .stat :=
  ⟨fun i => if i = 0 then some ⟨4, .stat, [1, 2, 3]⟩ else none, rfl, by decide, rfl, by decide⟩

/-- **C75, when are blocks lost?** Only by calls left by an exception of a move, at most one by each. -/
theorem C75_lost_only_by_moves (N R : Nat) (E : Elem α) (tr : α → α) (t : VOp α) (y y' : Sys α) (r : Reply α) (ls : List (Leak α))
    (h : vstep N R E tr t y = some (r, ls, y')) (hl : ls ≠ []) :
    r = .exc .element ∧ (∃ k, t.m = some k ∧ k < cmoves N R t.op y) ∧ ∃ l, ls = [l] := by
  simp only [vstep, Option.bind_eq_bind, Option.bind_eq_some_iff] at h
  obtain ⟨r0, h0, h⟩ := h
  split at h
  · simp only [Option.bind_eq_some_iff] at h
    obtain ⟨_, _, h⟩ := h
    simp only [Option.some.injEq, Prod.mk.injEq] at h
    exact absurd h.2.1.symm hl
  · rename_i k hf
    split at hf
    · simp at hf
    have hk := mfault_some hf
    split at h
    · rename_i i op hop
      simp only [Option.bind_eq_some_iff] at h
      obtain ⟨v, hv, ⟨h1, xs1, ls1⟩, ht, h⟩ := h
      simp only [Option.some.injEq, Prod.mk.injEq] at h
      obtain ⟨rfl, rfl, rfl⟩ := h
      refine ⟨rfl, ⟨k, hk⟩, ?_⟩
      have : ls1.length ≤ 1 := by
        simp only [tornStep] at ht
        cases op <;> simp only [reduceCtorEq] at ht <;> (repeat' split at ht) <;> simp only [Option.some.injEq, Prod.mk.injEq, reduceCtorEq] at ht <;> rw [← ht.2.2] <;> simp
      match ls1, this with
      | [], _ => simp at hl
      | [l], _ => exact ⟨_, rfl⟩
    · simp at h

example : (vstep 2 2 ⟨fun _ => 0, 0⟩ (· + 100) ⟨.call 0 .shrinkToFit, none, none, some 1⟩
    (fun i => if i = 0 then some ⟨4, .dyn 5, [1, 2, 3]⟩ else none)).map (fun p => (p.1, p.2.1, (p.2.2 0).map (·.xs))) =
    some (.exc .element, [⟨4, 5, [102, 3]⟩], some [1]) := by decide +kernel

end Itlib.SmallVector
