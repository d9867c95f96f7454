import Verif.PodVector.Props

/-!
# What appending to and removing from the end of a `pod_vector` costs

C68. A call that leaves the buffer as it is costs nothing here; every other one costs one and one for each element there
is, whether or not the allocator gets along without copying them.
-/
namespace Itlib.PodVector
open Itlib Spec
variable {A : Alloc}

/-- calls of `push_back(val)`, `emplace_back()`, `pop_back()` -/
inductive EndOp where
  | push (a : List Byte)
  | emplace
  | pop

def EndOp.op : EndOp → Op
  | .push a => .pushBack (.val a)
  | .emplace => .emplaceBack
  | .pop => .popBack

/-- the cost of going from one state of a vector to the next; `n` is its size -/
def cost (n : Nat) (v v' : Vec) : Nat := if v'.bgn = v.bgn ∧ v'.cap = v.cap then 0 else 1 + n

/-- the number of elements of a vector -/
def sizeOf (T : Ty) (v : Vec) : Nat := (v.endp.off - v.bgn.off) / T.sz

/-- the cost of calls of vector `i`; `none` is undefined behaviour -/
def work (A : Alloc) (i : Nat) : List EndOp → Mem → Option Nat
  | [], _ => some 0
  | o :: ops, m => do
    let (T, v) ← m.vec i
    let (_, m') ← mcall A (.call i o.op) m
    let (_, v') ← m'.vec i
    let w ← work A i ops m'
    some (cost (sizeOf T v) v v' + w)

/-! ### Calls that leave the buffer alone -/

/-- the buffer of the result is that of the start -/
def Keeps {β : Type} (s : St) : Res St β → Prop
  | .ok _ s' => s'.v.bgn = s.v.bgn ∧ s'.v.cap = s.v.cap
  | _ => True

theorem keeps_bind {β γ : Type} {s : St} {f : M St β} {g : β → M St γ} (hf : Keeps s (f s))
    (hg : ∀ b s', s'.v.bgn = s.v.bgn ∧ s'.v.cap = s.v.cap → Keeps s' (g b s')) : Keeps s ((f >>= g) s) := by
  rw [M.bind_apply]
  cases hfs : f s with
  | ub => trivial
  | throw e s' => trivial
  | ok b s' =>
    rw [hfs] at hf
    have := hg b s' hf
    simp only
    cases hgs : g b s' with
    | ub => trivial
    | throw e s' => trivial
    | ok c s'' =>
      rw [hgs] at this
      exact ⟨this.1.trans hf.1, this.2.trans hf.2⟩

theorem keeps_load {β : Type} (f : St → Option β) (s : St) : Keeps s (M.load f s) := by
  simp only [M.load]; cases f s <;> simp [Keeps]

theorem keeps_readAt (p : Ptr) (n : Nat) (s : St) : Keeps s (readAt p n s) := keeps_load _ s

theorem keeps_writeAt (p : Ptr) (l : List Cell) (s : St) : Keeps s (writeAt p l s) := by
  simp only [writeAt, M.mem]
  cases s.heap p.base with
  | none => trivial
  | some b =>
    simp only
    by_cases h : p.off + l.length ≤ b.size
    · simp only [h, if_true]; exact ⟨rfl, rfl⟩
    · simp only [h, if_false]; trivial

theorem keeps_copyBytes (p q : Ptr) (n : Nat) (s : St) : Keeps s (copyBytes p q n s) :=
  keeps_bind (keeps_readAt ..) fun _ s' _ => keeps_writeAt _ _ s'

variable {P : Params}

theorem keeps_get (s : St) : Keeps s ((M.get : M St St) s) := ⟨rfl, rfl⟩
theorem keeps_pure {β : Type} (b : β) (s : St) : Keeps s ((pure b : M St β) s) := ⟨rfl, rfl⟩
theorem keeps_undef {β : Type} (s : St) : Keeps s ((M.undef : M St β) s) := trivial
theorem keeps_setSize (n : Nat) (s : St) : Keeps s (setSize P n s) := ⟨rfl, rfl⟩

theorem keeps_size (s : St) : Keeps s (size P s) := by
  refine keeps_bind (keeps_get s) fun b s' _ => ?_
  split
  · exact keeps_pure _ _
  · exact keeps_undef _

theorem keeps_loadRef (r : Ref) (s : St) : Keeps s (loadRef P r s) := by
  cases r with
  | val a => exact keeps_pure _ _
  | slot p => exact keeps_readAt _ _ _

theorem keeps_bindRef (v : Arg (List Byte)) (s : St) : Keeps s (bindRef P v s) := by
  refine keeps_bind (keeps_get s) fun b s' _ => ?_
  cases v <;> exact keeps_pure _ _

theorem keeps_backPtr (s : St) : Keeps s (backPtr P s) := by
  refine keeps_bind (keeps_get s) fun b s' _ => ?_
  split
  · exact keeps_undef _
  · exact keeps_pure _ _

theorem keeps_shrinkAt (pos num : Nat) (s : St) : Keeps s (shrinkAt P pos num s) := by
  refine keeps_bind (keeps_size s) fun n s' _ => ?_
  split
  · exact keeps_setSize _ _
  · split
    · exact keeps_undef _
    · exact keeps_bind (keeps_get _) fun _ s'' _ => keeps_bind (keeps_copyBytes _ _ _ _) fun _ s3 _ => keeps_setSize _ _

theorem keeps_popBack (s : St) : Keeps s (popBack P s) := by
  refine keeps_bind (keeps_size s) fun n s' _ => ?_
  split
  · exact keeps_undef _
  · exact keeps_shrinkAt _ _ _

theorem keeps_emplaceBack (s : St) (h : (s.v.endp.off - s.v.bgn.off) / P.sz + 1 ≤ s.v.cap) : Keeps s (emplaceBack P s) := by
  simp only [emplaceBack, M.bind_apply]
  cases hs : size P s with
  | ub => trivial
  | throw e s' => trivial
  | ok n s' =>
    simp only [size, M.bind_apply, M.get_apply] at hs
    split at hs
    · cases hs
      simp only
      rw [reserve_stay _ _ h]
      exact ⟨rfl, rfl⟩
    · cases hs

theorem keeps_pushBack (v : Arg (List Byte)) (s : St) (h : (s.v.endp.off - s.v.bgn.off) / P.sz + 1 ≤ s.v.cap) :
    Keeps s (pushBack P v s) := by
  have hb : ∃ r, bindRef P v s = .ok r s := by cases v <;> exact ⟨_, rfl⟩
  obtain ⟨r, hr⟩ := hb
  have e : pushBack P v s = (emplaceBack P >>= fun _ => backPtr P >>= fun p => loadRef P r >>= fun l => writeAt p l) s := by
    simp only [pushBack, M.bind_apply, hr]
  rw [e]
  exact keeps_bind (keeps_emplaceBack s h) fun _ s1 _ => keeps_bind (keeps_backPtr _) fun _ s2 _ =>
    keeps_bind (keeps_loadRef _ _) fun _ s3 _ => keeps_writeAt _ _ _

theorem keeps_end (o : EndOp) (s : St) (h : o = .pop ∨ (s.v.endp.off - s.v.bgn.off) / P.sz + 1 ≤ s.v.cap) :
    Keeps s (exec P o.op s) := by
  cases o with
  | push a => exact keeps_bind (keeps_pushBack _ _ (by simpa using h)) fun _ _ _ => keeps_pure _ _
  | emplace => exact keeps_bind (keeps_emplaceBack _ (by simpa using h)) fun _ _ _ => keeps_pure _ _
  | pop => exact keeps_bind (keeps_popBack _) fun _ _ _ => keeps_pure _ _

theorem grow_one {c : Nat} (hc : 0 < c) : growTo (c + 1) (c + 1) c = (3 * c + 1) / 2 := by
  obtain ⟨c, rfl⟩ : ∃ d, c = d + 1 := ⟨c - 1, by omega⟩
  simp only [growTo]
  rw [if_neg (by omega), if_pos (by omega)]

/-- appending one element: what has been paid in advance, three for each element less two for each place, pays for it -/
theorem credit_push {c n : Nat} (hn : n ≤ c) :
    (if n + 1 ≤ c then 0 else 1 + n) + (3 * (n + 1) - 2 * newCap c (n + 1)) ≤ (3 * n - 2 * c) + 4 := by
  by_cases h : n + 1 ≤ c
  · rw [if_pos h, newCap, if_pos h]; omega
  · obtain rfl : n = c := by omega
    rw [if_neg h, newCap, if_neg h]
    by_cases h0 : n = 0
    · subst h0; simp
    · rw [if_neg h0, grow_one (by omega)]; omega

variable {m : Mem} {y : Sys} {own : Nat → Option Own}

theorem sizeOf_vec {i : Nat} {V : Spec.V} (h : MRep A m y own) (hy : y i = some V) :
    sizeOf ⟨V.sz, V.al⟩ (vecOf (own i) V) = V.xs.length := by
  have := (h.live i V hy).2.wf.sz
  simp only [sizeOf, vecOf, Ptr.add, Nat.add_sub_cancel_left]
  exact Nat.mul_div_cancel _ this

/-- one call -/
theorem end_step {i : Nat} {V : Spec.V} (h : MRep A m y own) (hy : y i = some V) (o : EndOp) {r : Reply}
    {c : Nat} {xs : List Spec.E} (hst : step V.sz A.zeroFill o.op V.cap V.xs = some (r, c, xs)) :
    ∃ m' own', mcall A (.call i o.op) m = some (r, m') ∧ MRep A m' (y.put i (some { V with cap := c, xs := xs })) own' ∧
      cost V.xs.length (vecOf (own i) V) (vecOf (own' i) { V with cap := c, xs := xs }) + (3 * xs.length - 2 * c) ≤
        (3 * V.xs.length - 2 * V.cap) + 4 := by
  have hs : Safe o.op V.cap V.xs := by cases o <;> trivial
  obtain ⟨hv, hS⟩ := h.live i V hy
  obtain ⟨m', own', e1, h'⟩ := at_call h hy hs hst
  refine ⟨m', own', by simp only [mcall, mexec, e1], h', ?_⟩
  have hv' := (h'.live i { V with cap := c, xs := xs } (by simp [Sys.put])).1
  have hk : (o = .pop ∨ V.xs.length + 1 ≤ V.cap) →
      cost V.xs.length (vecOf (own i) V) (vecOf (own' i) { V with cap := c, xs := xs }) = 0 := by
    intro ho
    have hk := keeps_end (P := Ty.params ⟨V.sz, V.al⟩ A) o ⟨vecOf (own i) V, m.heap, m.tick⟩ (by
      refine ho.imp_right fun ho => ?_
      have := sizeOf_vec h hy
      simp only [sizeOf] at this
      show (_ - _) / V.sz + 1 ≤ _
      rw [this]; exact ho)
    simp only [at', hv] at e1
    cases hx : exec (Ty.params ⟨V.sz, V.al⟩ A) o.op ⟨vecOf (own i) V, m.heap, m.tick⟩ with
    | ub => rw [hx] at e1; cases e1
    | throw e s => rw [hx] at e1; cases e1
    | ok q s =>
      rw [hx] at e1 hk
      simp only [Res.ok.injEq] at e1
      obtain ⟨-, rfl⟩ := e1
      simp only [Function.update_self, Option.some.injEq, Prod.mk.injEq, true_and] at hv'
      rw [← hv', cost, if_pos (show _ ∧ _ from hk)]
  have hc : ∀ v v', cost V.xs.length v v' ≤ 1 + V.xs.length := by intro v v'; unfold cost; split <;> omega
  have push : ∀ a, c = newCap V.cap (V.xs.length + 1) → xs = V.xs ++ [a] →
      cost V.xs.length (vecOf (own i) V) (vecOf (own' i) { V with cap := c, xs := xs }) + (3 * xs.length - 2 * c) ≤
        (3 * V.xs.length - 2 * V.cap) + 4 := by
    intro a h1 h2
    have e := credit_push hS.len
    have hl : xs.length = V.xs.length + 1 := by rw [h2]; simp
    rw [hl]
    refine Nat.le_trans (Nat.add_le_add_right ?_ _) (h1 ▸ e)
    by_cases hn : V.xs.length + 1 ≤ V.cap
    · rw [hk (Or.inr hn)]; omega
    · rw [if_neg hn]; exact hc _ _
  cases o with
  | push a =>
    simp only [EndOp.op, step, Option.bind_eq_bind, Option.bind_eq_some_iff, Option.some.injEq, Prod.mk.injEq] at hst
    obtain ⟨b, -, -, h1, h2⟩ := hst
    exact push b h1.symm h2.symm
  | emplace =>
    simp only [EndOp.op, step, Option.some.injEq, Prod.mk.injEq] at hst
    exact push none hst.2.1.symm hst.2.2.symm
  | pop =>
    rw [hk (Or.inl rfl)]
    simp only [EndOp.op, step] at hst
    split at hst
    · cases hst
    · simp only [Option.some.injEq, Prod.mk.injEq] at hst
      obtain ⟨-, rfl, rfl⟩ := hst
      simp only [List.length_dropLast]
      omega

theorem work_rep {i : Nat} (ops : List EndOp) : ∀ {m : Mem} {y : Sys} {own : Nat → Option Own} {V : Spec.V},
    MRep A m y own → y i = some V → (Spec.run V.sz A.zeroFill (ops.map EndOp.op) V.cap V.xs).isSome →
    ∃ w, work A i ops m = some w ∧ w ≤ (3 * V.xs.length - 2 * V.cap) + 4 * ops.length := by
  induction ops with
  | nil => intro m y own V _ _ _; exact ⟨0, rfl, by simp⟩
  | cons o ops ih =>
    intro m y own V h hy hr
    simp only [List.map_cons, Spec.run, Option.bind_eq_bind] at hr
    cases hst : step V.sz A.zeroFill o.op V.cap V.xs with
    | none => rw [hst] at hr; cases hr
    | some x =>
      obtain ⟨r, c, xs⟩ := x
      rw [hst] at hr
      simp only [Option.bind_some] at hr
      obtain ⟨m', own', e1, h', e2⟩ := end_step h hy o hst
      have hy' : (y.put i (some { V with cap := c, xs := xs })) i = some { V with cap := c, xs := xs } := by simp [Sys.put]
      obtain ⟨w, e3, e4⟩ := ih h' hy' (by
        cases hq : Spec.run V.sz A.zeroFill (ops.map EndOp.op) c xs with
        | none => rw [hq] at hr; cases hr
        | some q => rfl)
      have e5 := (h.live i V hy).1
      have e6 := (h'.live i _ hy').1
      refine ⟨_, by simp only [work, e5, e1, e6, e3, Option.bind_eq_bind, Option.bind_some]; rfl, ?_⟩
      rw [sizeOf_vec h hy, List.length_cons]
      simp only at e4
      omega

/-! ## C68 -/

/-- **C68 for `pod_vector`.** Any program, any of its vectors, any order of `push_back`, `emplace_back` and `pop_back` (of a
non-empty vector) on it: the total cost is at most four for each call, and one for each element that was there. -/
theorem C68_pod_vector_amortised (hA : Proper A) {m : Mem} {y : Sys} (hr : Reaches A y m) (i : Nat) (V : Spec.V)
    (hy : y i = some V) (ops : List EndOp) (hs : (Spec.run V.sz A.zeroFill (ops.map EndOp.op) V.cap V.xs).isSome) :
    ∃ w, work A i ops m = some w ∧ w ≤ V.xs.length + 4 * ops.length := by
  obtain ⟨own, h⟩ := reaches_rep hA hr
  obtain ⟨w, e1, e2⟩ := work_rep ops h hy hs
  have := (h.live i V hy).2.len
  exact ⟨w, e1, by omega⟩

/-- a vector with room for more: the first calls are paid for -/
theorem C68_pod_vector_reserved (hA : Proper A) {m : Mem} {y : Sys} (hr : Reaches A y m) (i : Nat) (V : Spec.V)
    (hy : y i = some V) (ops : List EndOp) (hs : (Spec.run V.sz A.zeroFill (ops.map EndOp.op) V.cap V.xs).isSome)
    (hroom : 3 * V.xs.length ≤ 2 * V.cap) :
    ∃ w, work A i ops m = some w ∧ w ≤ 4 * ops.length := by
  obtain ⟨own, h⟩ := reaches_rep hA hr
  obtain ⟨w, e1, e2⟩ := work_rep ops h hy hs
  exact ⟨w, e1, by omega⟩

/-- three elements, then a mix of calls that enlarges the buffer twice -/
example : ∃ m y V, Reaches (anAlloc true false) y m ∧ y 0 = some V ∧ V.xs.length = 3 ∧ V.cap = 3 ∧
    (Spec.run V.sz true ([EndOp.push [1], .emplace, .push [2], .pop, .pop, .push [7]].map EndOp.op) V.cap V.xs).isSome := by
  obtain ⟨m, own, e, h⟩ := mrun_refines (anAlloc_proper true false) (ops := [.ctorRange 0 1 1 [[1], [2], [3]]]) MRep.init
    ⟨⟨by decide, by decide, 0, rfl⟩, fun _ _ _ => trivial⟩ rfl
  exact ⟨m, _, _, ⟨[.ctorRange 0 1 1 [[1], [2], [3]]], _, rfl, ⟨⟨by decide, by decide, 0, rfl⟩, fun _ _ _ => trivial⟩, e⟩, rfl, rfl, rfl, by decide⟩

end Itlib.PodVector
