import Verif.PodVector.FailLemmas

/-! # Calls on several vectors with an allocator that may throw -/
namespace Itlib.PodVector
open Itlib

variable {A : Alloc} {m : Mem} {y : Spec.Sys} {own : Nat → Option Own}

theorem MRep.later (h : MRep A m y own) (t : Nat) : MRep A { m with tick := t } y own :=
  ⟨h.dead, h.live, h.heap, h.inj, h.bdd⟩

/-- the code does what it does with unlimited memory, or, if `W`, throws without effect -/
def MFails (m : Mem) (W : Prop) {β : Type} (f f' : M Mem β) : Prop :=
  f m = f' m ∨ W ∧ ∃ t, f m = .throw .badAlloc { m with tick := t }

theorem MFails.bind {β γ : Type} {W : Prop} {f f' : M Mem β} (h : MFails m W f f') (g : β → M Mem γ) :
    MFails m W (f >>= g) (f' >>= g) := by
  rcases h with h | ⟨w, t, h⟩
  · left; simp only [M.bind_apply, h]
  · right; exact ⟨w, t, by simp only [M.bind_apply, h]⟩

theorem MFails.after {β γ : Type} {W : Prop} {f : M Mem β} {g g' : β → M Mem γ} {b : β} (e : f m = .ok b m)
    (h : MFails m W (g b) (g' b)) : MFails m W (f >>= g) (f >>= g') := by
  rcases h with h | ⟨w, t, h⟩
  · left; simp only [M.bind_apply, e, h]
  · right; exact ⟨w, t, by simp only [M.bind_apply, e, h]⟩

theorem bind_assoc' {α β γ : Type} (f : M Mem α) (g : α → M Mem β) (k : β → M Mem γ) :
    (f >>= g) >>= k = f >>= fun a => g a >>= k := by
  funext m
  simp only [M.bind_apply]
  cases f m <;> rfl

theorem at_fails {β : Type} {i : Nat} {f : Params → M St β} {T : Ty} {v : Vec} (hv : m.vec i = some (T, v))
    {W : Prop} (h : f (T.params A) ⟨v, m.heap, m.tick⟩ = f (T.params A).never ⟨v, m.heap, m.tick⟩ ∨
      W ∧ ∃ t, f (T.params A) ⟨v, m.heap, m.tick⟩ = .throw .badAlloc ⟨v, m.heap, t⟩) :
    MFails m W (at' A i f) (at' A.never i f) := by
  rcases h with h | ⟨w, t, h⟩
  · left
    simp only [at', hv]
    show (match f (T.params A) _ with | .ok _ _ => _ | .throw _ _ => _ | .ub => _) = _
    rw [h]; rfl
  · right
    refine ⟨w, t, ?_⟩
    simp only [at', hv, h]
    congr
    rw [← hv, Function.update_eq_self]

theorem at_same {β : Type} {i : Nat} {f : Params → M St β}
    (h : ∀ T v, m.vec i = some (T, v) → f (T.params A) ⟨v, m.heap, m.tick⟩ = f (T.params A).never ⟨v, m.heap, m.tick⟩) :
    at' A i f m = at' A.never i f m := by
  cases hv : m.vec i with
  | none => simp only [at', hv]
  | some p =>
    obtain ⟨T, v⟩ := p
    simp only [at', hv]
    rw [h T v hv]; rfl

theorem at_free (i : Nat) : at' A i aFreeBegin = at' A.never i aFreeBegin := rfl
theorem at_clear (i : Nat) : at' A i clear = at' A.never i clear := rfl
theorem at_size (i : Nat) : at' A i size = at' A.never i size := rfl
theorem at_bytes (i : Nat) : at' A i bytes = at' A.never i bytes := rfl
theorem destruct_never (i : Nat) : destruct A i = destruct A.never i := rfl
theorem moveAssign_never (i j : Nat) : moveAssign A i j = moveAssign A.never i j := rfl
theorem swap_never (t i j : Nat) : swap A t i j = swap A.never t i j := rfl
theorem recastTake_never (i j : Nat) : recastTake A i j = recastTake A.never i j := rfl

/-- `safe_grow` releases the buffer first -/
theorem safeGrow_cases {P : Params} (ht : P.A.throws = true) {n : Nat} {s s1 : St} (hf : aFreeBegin P s = .ok () s1)
    (hn : s.v.cap < n) : safeGrow P n s = safeGrow P.never n s ∨
      ∃ t, safeGrow P n s = .throw .badAlloc ⟨{ s1.v with cap := getNewCapacity s.v.cap n }, s1.heap, t⟩ := by
  have hf' : aFreeBegin P.never s = .ok () s1 := hf
  have hn' : ¬ n ≤ s.v.cap := by omega
  rcases aMalloc_fails ht (getNewCapacity s.v.cap n) ⟨{ s1.v with cap := getNewCapacity s.v.cap n }, s1.heap, s1.tick⟩ with
    h | ⟨t, h⟩
  · left
    simp only [safeGrow, M.bind_apply, M.get_apply, hn', if_false, hf, hf', setCap, M.modify_apply, h]
  · right
    refine ⟨t, ?_⟩
    simp only [safeGrow, M.bind_apply, M.get_apply, hn', if_false, hf, setCap, M.modify_apply, h]

/-- a constructor that throws leaves nothing behind -/
theorem ctor_fails {β : Type} {i : Nat} {T : Ty} {f : Params → M St β} (hi : m.vec i = none)
    {W : Prop} (h : let P := T.params A
      let s : St := ⟨⟨null, null, 0⟩, m.heap, m.tick⟩
      f P s = f P.never s ∨ W ∧ ∃ e c t, f P s = .throw .badAlloc ⟨⟨null, e, c⟩, m.heap, t⟩) :
    MFails m W (construct i T >>= fun _ => ctorBody A i f) (construct i T >>= fun _ => ctorBody A.never i f) := by
  rcases h with h | ⟨w, e, c, t, h⟩
  · left
    simp only [M.bind_apply, construct, M.mem, hi, ctorBody]
    have e : at' A i f { m with vec := Function.update m.vec i (some (T, ⟨null, null, 0⟩)) } =
        at' A.never i f { m with vec := Function.update m.vec i (some (T, ⟨null, null, 0⟩)) } := by
      apply at_same
      intro T' v' hv
      simp only [Function.update_self, Option.some.injEq, Prod.mk.injEq] at hv
      obtain ⟨rfl, rfl⟩ := hv
      exact h
    rw [e, destruct_never]
  · right
    refine ⟨w, t, ?_⟩
    have e1 : at' A i f { m with vec := Function.update m.vec i (some (T, ⟨null, null, 0⟩)) } =
        .throw .badAlloc ⟨Function.update m.vec i (some (T, ⟨null, e, c⟩)), m.heap, t⟩ := by
      simp only [at', Function.update_self, h, Function.update_idem]
    have e2 : destruct A i ⟨Function.update m.vec i (some (T, ⟨null, e, c⟩)), m.heap, t⟩ = .ok () ⟨m.vec, m.heap, t⟩ := by
      have e3 := aFree_null (P := T.params A) e c m.heap t
      simp only [destruct, M.bind_apply, at', Function.update_self, e3, M.modify_apply, Function.update_idem]
      rw [← hi, Function.update_eq_self]
    simp only [M.bind_apply, construct, M.mem, hi, ctorBody, e1, e2]

theorem assignCopy_ctor {P : Params} (ht : P.A.throws = true) (n : Nat) (l : List Cell) (H : Heap) (t : Nat) :
    assignCopy P n l ⟨⟨null, null, 0⟩, H, t⟩ = assignCopy P.never n l ⟨⟨null, null, 0⟩, H, t⟩ ∨
      0 < n ∧ ∃ e c u, assignCopy P n l ⟨⟨null, null, 0⟩, H, t⟩ = .throw .badAlloc ⟨⟨null, e, c⟩, H, u⟩ := by
  by_cases hn : n = 0
  · left; exact assignCopy_same (by simp [hn]) l
  · rcases safeGrow_cases ht (aFree_null null 0 H t) (n := n) (Nat.pos_of_ne_zero hn) with h | ⟨u, h⟩
    · left
      simp only [assignCopy, M.bind_apply, h]; rfl
    · right
      exact ⟨Nat.pos_of_ne_zero hn, null, getNewCapacity 0 n, u, by simp only [assignCopy, M.bind_apply, h]⟩

theorem assignN_ctor {P : Params} (ht : P.A.throws = true) (n : Nat) (a : List Byte) (H : Heap) (t : Nat) :
    assignN P n (.val a) ⟨⟨null, null, 0⟩, H, t⟩ = assignN P.never n (.val a) ⟨⟨null, null, 0⟩, H, t⟩ ∨
      0 < n ∧ ∃ e c u, assignN P n (.val a) ⟨⟨null, null, 0⟩, H, t⟩ = .throw .badAlloc ⟨⟨null, e, c⟩, H, u⟩ := by
  by_cases hn : n = 0
  · left; exact assignN_same (by simp [hn]) _
  · rcases safeGrow_cases ht (aFree_null null 0 H t) (n := n) (Nat.pos_of_ne_zero hn) with h | ⟨u, h⟩
    · left
      simp only [assignN, M.bind_apply, bindRef, M.get_apply, M.pure_apply, h, fill_never]; rfl
    · right
      exact ⟨Nat.pos_of_ne_zero hn, null, getNewCapacity 0 n, u, by simp only [assignN, M.bind_apply, bindRef, M.get_apply, M.pure_apply, h]⟩

theorem resize_ctor {P : Params} (ht : P.A.throws = true) (n : Nat) (H : Heap) (t : Nat) :
    resize P n ⟨⟨null, null, 0⟩, H, t⟩ = resize P.never n ⟨⟨null, null, 0⟩, H, t⟩ ∨
      0 < n ∧ ∃ e c u, resize P n ⟨⟨null, null, 0⟩, H, t⟩ = .throw .badAlloc ⟨⟨null, e, c⟩, H, u⟩ := by
  by_cases hn : n = 0
  · left; exact resize_same (by simp [hn])
  · rcases resize_fails ht n ⟨⟨null, null, 0⟩, H, t⟩ with h | ⟨u, h⟩
    · exact .inl h
    · exact .inr ⟨Nat.pos_of_ne_zero hn, null, 0, u, h⟩

/-- `clear` on one of several vectors -/
theorem clear_at (h : MRep A m y own) {i : Nat} {V : Spec.V} (hi : y i = some V) :
    ∃ m1 own1, at' A i clear m = .ok () m1 ∧ MRep A m1 (y.put i (some { V with xs := [] })) own1 ∧
      (∀ j, j ≠ i → own1 j = own j) := by
  obtain ⟨s1, ec, hr1⟩ := call_refines (P := prm A V) (op := .clear) (h.live i V hi).2.wf (h.bdd_rest i) (h.focus hi)
    trivial rfl
  have ec' : clear (prm A V) ⟨vecOf (own i) V, m.heap, m.tick⟩ = .ok () s1 := by
    simp only [call, exec, M.bind_apply, clear, setSize, M.modify_apply, M.pure_apply, Option.some.injEq,
      Prod.mk.injEq, true_and] at ec
    simp only [clear, setSize, M.modify_apply, ec]
  obtain ⟨m1, own1, e1, h1, ho1⟩ := h.at_change hi clear ec' hr1
  exact ⟨m1, own1, e1, h1, ho1⟩

/-- A call that the vectors survive: what it does with unlimited memory, or, if it needs memory, nothing but throwing. -/
theorem mexec_fails (ht : A.throws = true) (h : MRep A.never m y own) {op : Spec.MOp} {r : Spec.Reply} {y' : Spec.Sys}
    (hst : Spec.mstep A.align A.zeroFill op y = some (r, y')) (hf : ¬ Spec.MFatal op y) :
    MFails m (Spec.MWants op y) (mexec A op) (mexec A.never op) := by
  cases op with
  | ctor i sz al => exact .inl rfl
  | moveCtor i j => exact .inl rfl
  | moveAssign i j => exact .inl rfl
  | swap t i j => exact .inl rfl
  | recastTake i j => exact .inl rfl
  | dtor i => exact .inl rfl
  | ctorCount i sz al n =>
    have hi : y i = none := by
      simp only [Spec.mstep] at hst
      split at hst
      · assumption
      · cases hst
    refine MFails.bind (W := 0 < n) (f := ctorCount A i ⟨sz, al⟩ n) (f' := ctorCount A.never i ⟨sz, al⟩ n) ?_ _
    unfold ctorCount
    rw [← bind_assoc', ← bind_assoc']
    exact (ctor_fails (h.dead i hi).1 (resize_ctor ht n m.heap m.tick)).bind _
  | ctorVal i sz al n a =>
    have hi : y i = none := by
      simp only [Spec.mstep] at hst
      split at hst
      · rename_i h; exact h.1
      · cases hst
    exact (ctor_fails (h.dead i hi).1 (assignN_ctor ht n a m.heap m.tick)).bind _
  | ctorRange i sz al ys =>
    have hi : y i = none := by
      simp only [Spec.mstep] at hst
      split at hst
      · rename_i h; exact h.1
      · cases hst
    refine (ctor_fails (h.dead i hi).1 ?_).bind _
    rcases assignCopy_ctor (P := Ty.params ⟨sz, al⟩ A) ht ys.length (ys.flatten.map some) m.heap m.tick with h | ⟨w, h⟩
    · exact .inl h
    · exact .inr ⟨by show ys ≠ []; intro e; simp [e] at w, h⟩
  | copyCtor i j =>
    simp only [Spec.mstep, Option.bind_eq_bind, Option.bind_eq_some_iff] at hst
    obtain ⟨W, hj, hst⟩ := hst
    have hi : y i = none := by
      split at hst
      · assumption
      · cases hst
    refine MFails.bind ?_ _
    refine MFails.after (tyOf_ok h hj) ?_
    rw [at_size, at_bytes]
    refine MFails.after (h.size_read hj) (MFails.after (h.bytes_read hj) ?_)
    refine ctor_fails (h.dead i hi).1 ?_
    rcases assignCopy_ctor (P := Ty.params ⟨W.sz, W.al⟩ A) ht W.xs.length (bytesOf (own j) (W.xs.length * W.sz))
      m.heap m.tick with h | ⟨w, h⟩
    · exact .inl h
    · exact .inr ⟨⟨W, hj, by intro e; simp [e] at w⟩, h⟩
  | copyAssign i j =>
    simp only [Spec.mstep, Option.bind_eq_bind, Option.bind_eq_some_iff] at hst
    obtain ⟨V, hi, W, hj, hst⟩ := hst
    left
    by_cases hij : i = j
    · subst hij
      show (copyAssign A i i >>= _) m = (copyAssign A.never i i >>= _) m
      simp only [copyAssign, if_true]
      rfl
    · have hji : j ≠ i := fun e => hij e.symm
      have hc : W.xs.length ≤ V.cap := Nat.not_lt.1 fun hx => hf ⟨hij, V, W, hi, hj, hx⟩
      obtain ⟨m1, own1, e1, h1, -⟩ := clear_at h hi
      have hj1 : (y.put i (some { V with xs := [] })) j = some W := by rw [put_ne _ hji]; exact hj
      have hi1 := put_self y i (some { V with xs := [] })
      have e3 : at' A i (fun P => assignCopy P W.xs.length (bytesOf (own1 j) (W.xs.length * W.sz))) m1 =
          at' A.never i (fun P => assignCopy P W.xs.length (bytesOf (own1 j) (W.xs.length * W.sz))) m1 := by
        apply at_same
        intro T v hv
        rw [(h1.live i _ hi1).1] at hv
        cases hv
        exact assignCopy_same hc _
      have e4 : at' A i clear m = .ok () m1 := e1
      have e5 : at' A j size m1 = .ok W.xs.length m1 := h1.size_read hj1
      have e6 : at' A j bytes m1 = .ok (bytesOf (own1 j) (W.xs.length * W.sz)) m1 := h1.bytes_read hj1
      simp only [mexec, copyAssign, hij, if_false, M.bind_apply, e1, e4, e5, e6, h1.size_read hj1, h1.bytes_read hj1, e3]
  | recastCopy i j =>
    simp only [Spec.mstep, Option.bind_eq_bind, Option.bind_eq_some_iff] at hst
    obtain ⟨V, hi, W, hj, hst⟩ := hst
    left
    have hij : i ≠ j := by
      intro e
      rw [if_pos e] at hst; cases hst
    have hji : j ≠ i := fun e => hij e.symm
    have hc : (Spec.recast W V.sz).length ≤ V.cap := Nat.not_lt.1 fun hx => hf ⟨V, W, hi, hj, hx⟩
    rw [recast_length (h.live j W hj).2] at hc
    obtain ⟨m1, own1, e1, h1, -⟩ := clear_at h hi
    have hj1 : (y.put i (some { V with xs := [] })) j = some W := by rw [put_ne _ hji]; exact hj
    have hi1 := put_self y i (some { V with xs := [] })
    have e3 : at' A i (fun P => assignCopy P (W.xs.length * W.sz / P.sz)
          ((bytesOf (own1 j) (W.xs.length * W.sz)).take (W.xs.length * W.sz / P.sz * P.sz))) m1 =
        at' A.never i (fun P => assignCopy P (W.xs.length * W.sz / P.sz)
          ((bytesOf (own1 j) (W.xs.length * W.sz)).take (W.xs.length * W.sz / P.sz * P.sz))) m1 := by
      apply at_same
      intro T v hv
      rw [(h1.live i _ hi1).1] at hv
      cases hv
      exact assignCopy_same hc _
    have e4 : at' A i clear m = .ok () m1 := e1
    have e5 : at' A j size m1 = .ok W.xs.length m1 := h1.size_read hj1
    have e6 : at' A j bytes m1 = .ok (bytesOf (own1 j) (W.xs.length * W.sz)) m1 := h1.bytes_read hj1
    simp only [mexec, recastCopy, M.bind_apply, e1, e4, e5, e6, tyOf_ok h1 hj1, h1.size_read hj1, h1.bytes_read hj1, e3]
  | call i op =>
    simp only [Spec.mstep, Option.bind_eq_bind, Option.bind_eq_some_iff] at hst
    obtain ⟨V, hi, hst⟩ := hst
    obtain ⟨hv, hs⟩ := h.live i V hi
    refine at_fails (A := A) (f := fun P => exec P op) hv ?_
    have hsz : size (Ty.params ⟨V.sz, V.al⟩ A) ⟨vecOf (own i) V, m.heap, m.tick⟩ =
        .ok V.xs.length ⟨vecOf (own i) V, m.heap, m.tick⟩ := size_st hs.wf _ _ _ _ _
    by_cases hw : Spec.Wants op V.cap V.xs
    · have hf' : ¬ Spec.Fatal op V.cap := fun hx => hf ⟨V, hi, hx⟩
      rcases exec_fails (P := Ty.params ⟨V.sz, V.al⟩ A) ht op ⟨vecOf (own i) V, m.heap, m.tick⟩ hf' with h | h
      · exact .inl h
      · exact .inr ⟨⟨V, hi, hw⟩, h⟩
    · exact .inl (exec_same hsz rfl hs.len hw)

/-- One call of a history: no undefined behaviour, and the effect is one of those the specification allows. -/
theorem tcall_refines (hA : Proper A.never) (ht : A.throws = true) (h : MRep A.never m y own) {op : Spec.MOp}
    (ha : Spec.Allowed A.align A.hasExpand A.zeroFill op y) :
    ∃ o m' y' own', tcall A op m = some (o, m') ∧ Spec.Effect A.align A.zeroFill op y o y' ∧ MRep A.never m' y' own' := by
  obtain ⟨hsome, hs, hf⟩ := ha
  obtain ⟨⟨r, y'⟩, hst⟩ := Option.isSome_iff_exists.1 hsome
  rcases mexec_fails ht h hst hf with e | ⟨w, t, e⟩
  · obtain ⟨m', own', hc, hr⟩ := mcall_refines hA h (op := op) hs hst
    refine ⟨.reply r, m', y', own', ?_, hst, hr⟩
    simp only [mcall] at hc
    simp only [tcall, e]
    split at hc
    · cases hc; rename_i h1; simp only [h1]
    · cases hc
    · cases hc
  · exact ⟨.badAlloc, { m with tick := t }, y, own, by simp only [tcall, e], ⟨w, rfl⟩, h.later t⟩

end Itlib.PodVector
