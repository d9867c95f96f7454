import Verif.StaticVector.Exec

/-!
# C83: references to elements of a `static_vector`

`Keeps op n i`: the call `op` on a vector of `n` elements must leave element `i` alone. The theorem says more than that its value is the same
afterwards: whatever there is in its slot - another object, or none at all - the call does the same and leaves it there. So the object is not read,
assigned to, moved from, destroyed or replaced by another one, and references, pointers and iterators to it stay valid.
-/
namespace Itlib.StaticVector
open Itlib
variable {α : Type}

namespace Spec

/-- the argument of a call is not the element itself, which the call reads -/
def Apart (v : Arg α) (i : Nat) : Prop := v ≠ .self i

/-- the elements that a call leaves alone: those in front of the place where it inserts or erases -/
def Keeps (op : Op α) (n i : Nat) : Prop :=
  match op with
  | .pushBack v | .emplaceBack v => i < n ∧ Apart v i
  | .popBack => i + 1 < n
  | .insert pos v | .insertN pos _ v => i < pos ∧ Apart v i
  | .insertRange pos _ => i < pos
  | .erase pos => i < pos ∧ pos < n
  | .eraseRange first last => i < first ∧ first ≤ last ∧ last ≤ n
  | .resize m => i < n ∧ i < m
  | .resizeV m v => i < n ∧ i < m ∧ Apart v i
  | .set j v => i ≠ j ∧ Apart v i
  | .moveElem j k => i ≠ j ∧ i ≠ k
  | .get j => i ≠ j
  | .front => i ≠ 0
  | .back => i + 1 ≠ n
  | .size | .isEmpty | .capacity => True
  | .clear | .assignN _ _ | .assignRange _ | .forward | .backward => False

/-- all calls of a history leave element `i` alone -/
def KeepsRun (cap : Nat) (E : Elem α) (i : Nat) : List (Op α) → List α → Prop
  | [], _ => True
  | op :: ops, xs => Keeps op xs.length i ∧
    match step cap E op xs with
    | some (_, xs') => KeepsRun cap E i ops xs'
    | none => False

end Spec

/-- the memory with something else in slot `i` -/
def _root_.Itlib.Buf.over (b : Buf α) (i : Nat) (x : Cell α) : Buf α := { b with cells := Function.update b.cells i x }

/-- the vector with something else in slot `i` -/
def SV.over (s : SV α) (i : Nat) (x : Cell α) : SV α := { s with buf := s.buf.over i x }

/-- the same for the state after a call -/
def _root_.Itlib.Res.over {β : Type} (r : Res (SV α) β) (i : Nat) (x : Cell α) : Res (SV α) β :=
  match r with
  | .ok a s => .ok a (s.over i x)
  | .throw e s => .throw e (s.over i x)
  | .ub => .ub

/-! ### Memory -/

def BFr (i : Nat) (f : Buf α → Option (Buf α)) (b : Buf α) : Prop := ∀ x, f (b.over i x) = (f b).map (·.over i x)

variable {i : Nat}

theorem BFr.bind {f g : Buf α → Option (Buf α)} {b : Buf α} (hf : BFr i f b) (hg : ∀ b', BFr i g b') :
    BFr i (fun b => (f b).bind g) b := by
  intro x
  show (f (b.over i x)).bind g = ((f b).bind g).map _
  rw [hf x]
  cases h : f b with
  | none => rfl
  | some b' => exact hg b' x

theorem bfr_destroy {j : Nat} (h : j ≠ i) (b : Buf α) : BFr i (Buf.destroy j) b := by
  intro x
  simp only [Buf.destroy, Buf.over, Function.update_of_ne h]
  split
  · cases hc : b.cells j <;> simp [Function.update_comm h]
  · rfl

theorem bfr_construct {j : Nat} (h : j ≠ i) (a : α) (b : Buf α) : BFr i (Buf.construct j a) b := by
  intro x
  simp only [Buf.construct, Buf.over, Function.update_of_ne h]
  split
  · cases hc : b.cells j <;> simp [Function.update_comm h]
  · rfl

theorem bfr_assign {j : Nat} (h : j ≠ i) (a : α) (b : Buf α) : BFr i (Buf.assign j a) b := by
  intro x
  simp only [Buf.assign, Buf.over, Function.update_of_ne h]
  split
  · cases hc : b.cells j <;> simp [Function.update_comm h]
  · rfl

theorem read_over {j : Nat} (h : j ≠ i) (b : Buf α) (x : Cell α) : (b.over i x).read j = b.read j := by
  simp only [Buf.read, Buf.over, Function.update_of_ne h]

theorem bfr_moveConstruct {j k : Nat} (mv : α → α) (hj : j ≠ i) (hk : k ≠ i) (b : Buf α) : BFr i (Buf.moveConstruct mv j k) b := by
  intro x
  have e : (b.over i x).moveOut mv k = (b.moveOut mv k).map fun p => (p.1, p.2.over i x) := by
    simp only [Buf.moveOut, Buf.over, Function.update_of_ne hk]
    split
    · cases hc : b.cells k <;> simp [Function.update_comm hk]
    · rfl
  simp only [Buf.moveConstruct, e, Option.bind_eq_bind]
  cases h : b.moveOut mv k with
  | none => rfl
  | some p => exact bfr_construct hj p.1 p.2 x

theorem bfr_shiftUp (mv : α → α) (by_ pos : Nat) (h : i < pos) (k : Nat) (b : Buf α) : BFr i (Buf.shiftUp mv by_ pos k) b := by
  induction k generalizing b with
  | zero => intro x; rfl
  | succ k ih =>
    exact (bfr_moveConstruct mv (by omega) (by omega) b).bind fun b' => (bfr_destroy (by omega) b').bind fun b'' => ih b''

theorem bfr_shiftDown (mv : α → α) (myend f p np : Nat) (hp : i < p) (hn : i < np) (b : Buf α) : BFr i (Buf.shiftDown mv myend f p np) b := by
  induction f generalizing b p np with
  | zero => intro x; rfl
  | succ f ih =>
    by_cases h : np = myend
    · intro x; simp [Buf.shiftDown, h]
    · have := (bfr_destroy (i := i) (j := p) (by omega) b).bind fun b' => (bfr_moveConstruct mv (j := p) (k := np) (by omega) (by omega) b').bind
        fun b'' => ih (p + 1) (np + 1) (by omega) (by omega) b''
      intro x
      have := this x
      simp only [Buf.shiftDown, if_neg h, Option.bind_eq_bind]
      exact this

theorem bfr_destroyRange (pos : Nat) (h : i < pos) (k : Nat) (b : Buf α) : BFr i (Buf.destroyRange pos k) b := by
  induction k generalizing b pos with
  | zero => intro x; rfl
  | succ k ih => exact (bfr_destroy (by omega) b).bind fun b' => ih (pos + 1) (by omega) b'

/-! ### Calls -/

/-- from the state `s`, `m` does not touch slot `i` -/
def Fr {β : Type} (i : Nat) (m : M (SV α) β) (s : SV α) : Prop := ∀ x, m (s.over i x) = (m s).over i x

variable {β γ : Type} {s : SV α}

theorem Fr.bind {m : M (SV α) β} {f : β → M (SV α) γ} (hm : Fr i m s) (hf : ∀ a s', m s = .ok a s' → Fr i (f a) s') : Fr i (m >>= f) s := by
  intro x
  simp only [M.bind_apply, hm x]
  cases h : m s with
  | ok a s' => exact hf a s' h x
  | throw e s' => rfl
  | ub => rfl

theorem Fr.get {f : SV α → M (SV α) β} (he : ∀ x, f (s.over i x) = f s) (hf : Fr i (f s) s) : Fr i (M.get >>= f) s := by
  intro x
  simp only [M.bind_apply, M.get_apply, he x]
  exact hf x

theorem Fr.pure (a : β) : Fr i (pure a : M (SV α) β) s := fun _ => rfl
theorem Fr.undef : Fr i (M.undef : M (SV α) β) s := fun _ => rfl
theorem Fr.raise (e : Exc) : Fr i (M.raise e : M (SV α) β) s := fun _ => rfl
theorem Fr.sized (f : Nat → Nat) : Fr i (M.modify fun s : SV α => { s with size := f s.size }) s := fun _ => rfl

theorem Fr.outOfRangeIf (c : Prop) [Decidable c] : Fr i (outOfRangeIf c : M (SV α) Unit) s := by
  unfold StaticVector.outOfRangeIf
  split
  · exact .raise _
  · exact .pure _

theorem Fr.onBuf {f : Buf α → Option (Buf α)} (h : BFr i f s.buf) : Fr i (onBuf f) s := by
  intro x
  have := h x
  simp only [StaticVector.onBuf, M.mem, SV.over, this]
  cases f s.buf <;> rfl

theorem Fr.read {j : Nat} (h : j ≠ i) : Fr i (.load fun s : SV α => s.buf.read j) s := by
  intro x
  simp only [M.load, SV.over, read_over h]
  cases s.buf.read j <;> rfl

theorem Fr.readArg {v : Arg α} (h : Spec.Apart v i) : Fr i (readArg v) s := by
  cases v with
  | val a => exact .pure a
  | self j => exact .read fun e => h (by rw [e])

theorem Fr.emplaceAt {j : Nat} (h : j ≠ i) (a : α) : Fr i (emplaceAt j a) s := by
  intro x
  have := bfr_construct h a s.buf x
  simp only [StaticVector.emplaceAt, SV.over, this]
  cases s.buf.construct j a with
  | none => rfl
  | some b =>
    rcases ht : s.tick with _ | _ | k <;> simp [Res.over, SV.over]

theorem Fr.at_ {j : Nat} (h : j ≠ i) : Fr i (at_ j) s := by
  intro x
  simp only [StaticVector.at_, SV.over, read_over h]
  split
  · cases s.buf.read j <;> rfl
  · rfl

theorem Fr.back (h : i + 1 ≠ s.size) : Fr i back s := by
  by_cases h0 : s.size = 0
  · intro x; simp [StaticVector.back, SV.over, h0, Res.over]
  · intro x
    have := Fr.at_ (s := s) (i := i) (j := s.size - 1) (by omega) x
    simpa [StaticVector.back, SV.over, h0] using this

/-! sizes -/

theorem readArg_state {v : Arg α} {a : α} {s' : SV α} (h : readArg v s = .ok a s') : s' = s := by
  cases v with
  | val b => simp only [readArg, M.pure_apply, Res.ok.injEq] at h; exact h.2.symm
  | self j =>
    simp only [readArg, M.load] at h
    split at h
    · simp only [Res.ok.injEq] at h; exact h.2.symm
    · cases h

theorem outOfRangeIf_state {c : Prop} [Decidable c] {a : Unit} {s' : SV α} (h : StaticVector.outOfRangeIf c s = .ok a s') : s' = s ∧ ¬ c := by
  unfold outOfRangeIf at h
  split at h
  · cases h
  · rename_i hc; simp only [M.pure_apply, Res.ok.injEq] at h; exact ⟨h.2.symm, hc⟩

theorem emplaceAt_size {j : Nat} {b : α} {a : Unit} {s' : SV α} (h : StaticVector.emplaceAt j b s = .ok a s') : s'.size = s.size := by
  unfold emplaceAt at h
  split at h
  · cases h
  · split at h <;> cases h <;> rfl

theorem onBuf_size {f : Buf α → Option (Buf α)} {a : Unit} {s' : SV α} (h : StaticVector.onBuf f s = .ok a s') : s'.size = s.size := by
  simp only [onBuf, M.mem] at h
  cases hb : f s.buf with
  | none => simp [hb] at h
  | some b => simp [hb] at h; rw [← h]

theorem fr_pushBack {v : Arg α} (hi : i < s.size) (hv : Spec.Apart v i) : Fr i (pushBack v) s := by
  refine .get (fun _ => rfl) (.bind (.outOfRangeIf _) fun _ s1 h1 => ?_)
  obtain ⟨rfl, -⟩ := outOfRangeIf_state h1
  refine .bind (.readArg hv) fun a s2 _ => .bind (.emplaceAt (by omega) a) fun _ s3 _ => .sized (· + 1)

theorem pushBack_size {v : Arg α} {a : Unit} {s' : SV α} (h : pushBack v s = .ok a s') : s'.size = s.size + 1 := by
  simp only [pushBack, M.bind_apply, M.get_apply] at h
  cases h1 : outOfRangeIf (s.size ≥ s.buf.cap) s with
  | throw e s1 => simp [h1] at h
  | ub => simp [h1] at h
  | ok a1 s1 =>
    simp only [h1] at h
    obtain ⟨rfl, -⟩ := outOfRangeIf_state h1
    cases h2 : readArg v s1 with
    | throw e s1 => simp [h2] at h
    | ub => simp [h2] at h
    | ok a2 s2 =>
      simp only [h2] at h
      have e2 := readArg_state h2
      subst e2
      cases h3 : emplaceAt s2.size a2 s2 with
      | throw e s1 => simp [h3] at h
      | ub => simp [h3] at h
      | ok a3 s3 =>
        simp only [h3, M.modify_apply, Res.ok.injEq] at h
        rw [← h.2, ← emplaceAt_size h3]

theorem fr_emplaceBack {v : Arg α} (hi : i < s.size) (hv : Spec.Apart v i) : Fr i (emplaceBack v) s := by
  refine .get (fun _ => rfl) (.bind (.outOfRangeIf _) fun _ s1 h1 => ?_)
  obtain ⟨rfl, -⟩ := outOfRangeIf_state h1
  refine .bind (.readArg hv) fun a s2 h2 => .bind (.emplaceAt (by omega) a) fun _ s3 h3 => .bind (.sized (· + 1)) fun _ s4 h4 => ?_
  have e2 := readArg_state h2
  have e3 := emplaceAt_size h3
  simp only [M.modify_apply, Res.ok.injEq, true_and] at h4
  have e4 : s4.size = s1.size + 1 := by rw [← h4, ← e2, ← e3]
  exact .get (fun _ => rfl) (.bind (.back (by omega)) fun _ _ _ => .pure _)

theorem fr_growAt (E : Elem α) {pos n : Nat} (h : i < pos) : Fr i (growAt E pos n) s := by
  refine .get (fun _ => rfl) (.bind (.outOfRangeIf _) fun _ s1 h1 => ?_)
  obtain ⟨rfl, -⟩ := outOfRangeIf_state h1
  split
  · split
    · exact .pure _
    · exact .bind (.onBuf (bfr_shiftUp _ _ _ h _ _)) fun _ _ _ => .bind (.sized (· + n)) fun _ _ _ => .pure _
  · exact .undef

theorem growAt_pos {E : Elem α} {pos n p : Nat} {s' : SV α} (h : growAt E pos n s = .ok p s') : p = pos := by
  simp only [growAt, M.bind_apply, M.get_apply] at h
  cases h1 : outOfRangeIf ((s.size + n) % sizeMod > s.buf.cap) s with
  | throw e s1 => simp [h1] at h
  | ub => simp [h1] at h
  | ok a1 s1 =>
    simp only [h1] at h
    split at h
    · split at h
      · simp only [M.pure_apply, Res.ok.injEq] at h; exact h.1.symm
      · simp only [M.bind_apply] at h
        cases h2 : onBuf (Buf.shiftUp E.mv n pos (s.size - pos)) s1 with
        | throw e s1 => simp [h2] at h
        | ub => simp [h2] at h
        | ok a2 s2 => simp only [h2, M.modify_apply, M.pure_apply, Res.ok.injEq] at h; exact h.1.symm
    · cases h

theorem fr_fillLoop {v : Arg α} (hv : Spec.Apart v i) (p k : Nat) (h : i < p) : Fr i (fillLoop v p k) s := by
  induction k generalizing p s with
  | zero => exact .pure _
  | succ k ih => exact .bind (.readArg hv) fun a _ _ => .bind (.emplaceAt (by omega) a) fun _ _ _ => ih (p + 1) (by omega)

theorem fr_copyLoop (p : Nat) (xs : List α) (h : i < p) : Fr i (copyLoop p xs) s := by
  induction xs generalizing p s with
  | nil => exact .pure _
  | cons a xs ih => exact .bind (.emplaceAt (by omega) a) fun _ _ _ => ih (p + 1) (by omega)

theorem fr_shrinkAt (E : Elem α) {pos n : Nat} (h : i < pos) (hn : pos + n ≤ s.size) : Fr i (shrinkAt E pos n) s := by
  refine .get (fun _ => rfl) (.bind (.outOfRangeIf _) fun _ s1 h1 => ?_)
  obtain ⟨rfl, -⟩ := outOfRangeIf_state h1
  split
  · rw [if_neg (by omega)]
    exact .bind (.onBuf (bfr_shiftDown _ _ _ _ _ h (by omega) _)) fun _ _ _ => .bind (.onBuf (bfr_destroyRange _ (by omega) _ _)) fun _ _ _ =>
      .bind (.sized (· - n)) fun _ _ _ => .pure _
  · exact .undef

theorem shrinkAt_size {E : Elem α} {pos n p : Nat} {s' : SV α} (h : shrinkAt E pos n s = .ok p s') (hn : n < s.size) : s'.size = s.size - n := by
  simp only [shrinkAt, M.bind_apply, M.get_apply] at h
  cases h1 : outOfRangeIf (n > s.size) s with
  | throw e s1 => simp [h1] at h
  | ub => simp [h1] at h
  | ok a1 s1 =>
    simp only [h1] at h
    obtain ⟨rfl, -⟩ := outOfRangeIf_state h1
    split at h
    · rw [if_neg (by omega)] at h
      simp only [M.bind_apply] at h
      cases h2 : onBuf (Buf.shiftDown E.mv s1.size (s1.buf.cap + 1) pos (pos + n)) s1 with
      | throw e s1 => simp [h2] at h
      | ub => simp [h2] at h
      | ok a2 s2 =>
        simp only [h2] at h
        cases h3 : onBuf (Buf.destroyRange (s1.size - n) n) s2 with
        | throw e s1 => simp [h3] at h
        | ub => simp [h3] at h
        | ok a3 s3 =>
          simp only [h3, M.modify_apply, M.pure_apply, Res.ok.injEq] at h
          rw [← h.2, ← onBuf_size h2, ← onBuf_size h3]
    · cases h

theorem fr_popBack (E : Elem α) (h : i + 1 < s.size) : Fr i (popBack E) s :=
  .get (fun _ => rfl) (.bind (fr_shrinkAt E (by omega) (by omega)) fun _ _ _ => .pure _)

theorem popBack_size {E : Elem α} {a : Unit} {s' : SV α} (h : popBack E s = .ok a s') (hn : 1 < s.size) : s'.size = s.size - 1 := by
  simp only [popBack, M.bind_apply, M.get_apply] at h
  cases h1 : shrinkAt E (s.size - 1) 1 s with
  | throw e s1 => simp [h1] at h
  | ub => simp [h1] at h
  | ok p s1 =>
    simp only [h1, M.pure_apply, Res.ok.injEq] at h
    rw [← h.2]
    exact shrinkAt_size h1 hn

theorem fr_popLoop (E : Elem α) {n : Nat} (h : i < n) (f : Nat) : Fr i (popLoop E n f) s := by
  induction f generalizing s with
  | zero =>
    refine .get (fun _ => rfl) ?_
    split
    · exact .undef
    · exact .pure _
  | succ f ih =>
    refine .get (fun _ => rfl) ?_
    split
    · exact .bind (fr_popBack E (by omega)) fun _ _ _ => ih
    · exact .pure _

theorem popLoop_size {E : Elem α} {n f : Nat} {a : Unit} {s' : SV α} (h : popLoop E n f s = .ok a s') (hi : i < s.size) (hn : i < n) :
    i < s'.size := by
  induction f generalizing s with
  | zero =>
    simp only [popLoop, M.bind_apply, M.get_apply] at h
    split at h
    · cases h
    · simp only [M.pure_apply, Res.ok.injEq] at h; rw [← h.2]; exact hi
  | succ f ih =>
    simp only [popLoop, M.bind_apply, M.get_apply] at h
    split at h
    · rename_i hg
      simp only [M.bind_apply] at h
      cases h1 : popBack E s with
      | throw e s1 => simp [h1] at h
      | ub => simp [h1] at h
      | ok a1 s1 =>
        simp only [h1] at h
        exact ih h (by rw [popBack_size h1 (by omega)]; omega)
    · simp only [M.pure_apply, Res.ok.injEq] at h; rw [← h.2]; exact hi

theorem fr_pushLoop {v : Arg α} (hv : Spec.Apart v i) (n f : Nat) (hi : i < s.size) : Fr i (pushLoop v n f) s := by
  induction f generalizing s with
  | zero =>
    refine .get (fun _ => rfl) ?_
    split
    · exact .undef
    · exact .pure _
  | succ f ih =>
    refine .get (fun _ => rfl) ?_
    split
    · exact .bind (fr_pushBack hi hv) fun _ s1 h1 => ih (by rw [pushBack_size h1]; omega)
    · exact .pure _

theorem fr_resizeV (E : Elem α) {v : Arg α} {n : Nat} (hi : i < s.size) (hn : i < n) (hv : Spec.Apart v i) : Fr i (resizeV E n v) s := by
  refine .get (fun _ => rfl) (.bind (.outOfRangeIf _) fun _ s1 h1 => ?_)
  obtain ⟨rfl, -⟩ := outOfRangeIf_state h1
  exact .bind (fr_popLoop E hn _) fun _ s2 h2 => fr_pushLoop hv n n (popLoop_size h2 hi hn)

/-- C83. A call leaves alone the elements in front of the place where it inserts or erases, and those that it has nothing to do with: with anything
else, or nothing, in the slot of such an element it does and returns the same, and leaves that there. This holds also of calls that throw, and
for any state of the vector. -/
theorem C83_untouched (E : Elem α) {op : Op α} {s : SV α} {i : Nat} (h : Spec.Keeps op s.size i) (x : Cell α) :
    exec E op (s.over i x) = (exec E op s).over i x := by
  revert x
  show Fr i (exec E op) s
  cases op with
  | pushBack v => exact .bind (fr_pushBack h.1 h.2) fun _ _ _ => .pure _
  | emplaceBack v => exact .bind (fr_emplaceBack h.1 h.2) fun _ _ _ => .pure _
  | popBack => exact .bind (fr_popBack E h) fun _ _ _ => .pure _
  | insert pos v =>
    refine .bind (.bind (fr_growAt E h.1) fun p s1 h1 => ?_) fun _ _ _ => .pure _
    have := growAt_pos h1
    have h' := h.1
    exact .bind (.readArg h.2) fun a _ _ => .bind (.emplaceAt (by omega) a) fun _ _ _ => .pure _
  | insertN pos n v =>
    refine .bind (.bind (fr_growAt E h.1) fun p s1 h1 => ?_) fun _ _ _ => .pure _
    have := growAt_pos h1
    have h' := h.1
    exact .bind (fr_fillLoop h.2 p n (by omega)) fun _ _ _ => .pure _
  | insertRange pos xs =>
    have h' : i < pos := h
    refine .bind (.bind (fr_growAt E h') fun p s1 h1 => ?_) fun _ _ _ => .pure _
    have := growAt_pos h1
    exact .bind (fr_copyLoop p xs (by omega)) fun _ _ _ => .pure _
  | erase pos => exact .bind (fr_shrinkAt E h.1 (by have := h.2; omega)) fun _ _ _ => .pure _
  | eraseRange f l =>
    obtain ⟨h1, h2, h3⟩ := h
    refine .bind ?_ fun _ _ _ => .pure _
    unfold eraseRange
    rw [if_pos h2]
    exact fr_shrinkAt E h1 (by omega)
  | clear => exact h.elim
  | resize n => exact .bind (fr_resizeV E h.1 h.2 (by intro e; cases e)) fun _ _ _ => .pure _
  | resizeV n v => exact .bind (fr_resizeV E h.1 h.2.1 h.2.2) fun _ _ _ => .pure _
  | assignN n v => exact h.elim
  | assignRange xs => exact h.elim
  | set j v => exact .bind (.bind (.readArg h.2) fun a _ _ => .bind (.at_ h.1.symm) fun _ s2 _ => .onBuf (bfr_assign h.1.symm a _)) fun _ _ _ => .pure _
  | moveElem j k =>
    refine .bind (.bind (.at_ h.2.symm) fun a _ _ => .bind (.at_ h.1.symm) fun _ s2 _ => ?_) fun _ _ _ => .pure _
    split
    · exact .undef
    · exact .bind (.onBuf (bfr_assign h.1.symm a _)) fun _ _ _ => .onBuf (bfr_assign h.2.symm (E.mv a) _)
  | get j => exact .bind (.at_ (Ne.symm h)) fun _ _ _ => .pure _
  | front => exact .bind (.at_ (Ne.symm h)) fun _ _ _ => .pure _
  | back => exact .bind (.back h) fun _ _ _ => .pure _
  | size => exact .bind (.get (fun _ => rfl) (.pure _)) fun _ _ _ => .pure _
  | isEmpty => exact .bind (.get (fun _ => rfl) (.pure _)) fun _ _ _ => .pure _
  | capacity => exact .bind (.get (fun _ => rfl) (.pure _)) fun _ _ _ => .pure _
  | forward => exact h.elim
  | backward => exact h.elim

/-- a call whose exceptions are caught -/
theorem call_over (E : Elem α) {op : Op α} {s : SV α} {i : Nat} (h : Spec.Keeps op s.size i) (x : Cell α) :
    call E op (s.over i x) = (call E op s).map fun p => (p.1, p.2.over i x) := by
  simp only [call, C83_untouched E h x]
  cases exec E op s <;> rfl

/-- the state after a call, if its behaviour is defined -/
def after {β : Type} : Res (SV α) β → Option (SV α)
  | .ok _ s | .throw _ s => some s
  | .ub => none

/-- C83, what the owner of a pointer sees: the object it points to is the same after the call. -/
theorem C83_value (E : Elem α) {op : Op α} {s s' : SV α} {i : Nat} (h : Spec.Keeps op s.size i) (hs : after (exec E op s) = some s') :
    s'.buf.cells i = s.buf.cells i := by
  have h1 := C83_untouched E h (s.buf.cells i)
  have e0 : s.over i (s.buf.cells i) = s := by simp [SV.over, Buf.over]
  rw [e0] at h1
  have key : s' = s'.over i (s.buf.cells i) := by
    cases he : exec E op s with
    | ub => rw [he] at hs; cases hs
    | ok a t =>
      rw [he] at h1 hs
      simp only [Res.over, Res.ok.injEq, true_and] at h1
      simp only [after, Option.some.injEq] at hs
      rw [← hs]; exact h1
    | throw e t =>
      rw [he] at h1 hs
      simp only [Res.over, Res.throw.injEq, true_and] at h1
      simp only [after, Option.some.injEq] at hs
      rw [← hs]; exact h1
  rw [key]
  simp [SV.over, Buf.over]

/-! ### Examples -/

/-- `C83_untouched`, where the constructor of the new element throws -/
example : Spec.Keeps (.insert 1 (.val 7) : Op Nat) (rep 4 [1, 2]).size 0 ∧
    exec ⟨id, 0⟩ (.insert 1 (.val 7)) { rep 4 [1, 2] with tick := some 0 } ≠ .ub := by
  refine ⟨by simp [Spec.Keeps, Spec.Apart], ?_⟩
  simp [exec, insert, growAt, outOfRangeIf, rep, Buf.ofList, sizeMod, onBuf, M.mem, Buf.shiftUp, Buf.moveConstruct, Buf.moveOut, Buf.construct,
    Buf.destroy, readArg, emplaceAt]

/-- the conclusion fails of an element that a call moves: without element 1 the insertion is undefined -/
example : exec ⟨id, 0⟩ (.insert 0 (.val 7)) (rep 4 [1, 2]) ≠ .ub ∧ exec ⟨id, 0⟩ (.insert 0 (.val 7)) ((rep 4 [1, 2]).over 1 .raw) = .ub := by
  constructor <;>
  simp [exec, insert, growAt, outOfRangeIf, rep, Buf.ofList, sizeMod, onBuf, M.mem, Buf.shiftUp, Buf.moveConstruct, Buf.moveOut, Buf.construct,
    Buf.destroy, readArg, emplaceAt, SV.over, Buf.over, Function.update]

end Itlib.StaticVector
