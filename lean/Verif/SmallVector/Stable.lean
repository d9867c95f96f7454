import Verif.StaticVector.Stable
import Verif.SmallVector.Exec

/-!
# C83: references to elements of a `small_vector`

As for `static_vector` (`StaticVector/Stable.lean`), but only as long as the elements need not go to another buffer (`Spec.moves`). With anything
else, or nothing, in the slot of an element that a call must leave alone, the call does the same and leaves it there, and `data()` is the same
afterwards.
-/
namespace Itlib.SmallVector
open Itlib
open Itlib.StaticVector (BFr bfr_destroy bfr_construct bfr_assign read_over bfr_shiftUp bfr_shiftDown bfr_destroyRange)
variable {α : Type}

namespace Spec

/-- the elements that a call on a vector of `n` elements leaves alone: those in front of the place where it inserts or erases, if all stay in their
buffer; the argument of the call is read, and is not among them -/
def Keeps (N R : Nat) (op : Op α) (h : Home) (n i : Nat) : Prop :=
  match op with
  | .pushBack v | .emplaceBack v => i < n ∧ v ≠ .self i ∧ ¬ moves N R (n + 1) h
  | .popBack => i + 1 < n ∧ ¬ moves N R (n - 1) h
  | .insert pos v => (i : Int) < pos ∧ v ≠ .self i ∧ ¬ moves N R (n + 1) h
  | .insertN pos m v => (i : Int) < pos ∧ v ≠ .self i ∧ ¬ moves N R (n + m) h
  | .insertRange pos ys => (i : Int) < pos ∧ ¬ moves N R (n + ys.length) h
  | .erase pos => (i : Int) < pos ∧ ¬ moves N R (n - 1) h
  | .eraseRange f l => (i : Int) < f ∧ ¬ moves N R (n - (l - f).toNat) h
  | .resize m => i < n ∧ i < m ∧ m ≤ h.cap N
  | .resizeV m v => i < n ∧ i < m ∧ v ≠ .self i ∧ m ≤ h.cap N
  | .reserve m => m ≤ h.cap N
  | .shrinkToFit => h = .stat ∨ n = h.cap N
  | .revertToStatic => h = .stat ∨ N < n
  | .set j v => i ≠ j ∧ v ≠ .self i
  | .moveElem j k => i ≠ j ∧ i ≠ k
  | .get j => i ≠ j
  | .front => i ≠ 0
  | .getBack => i + 1 ≠ n
  | .size | .isEmpty | .capacity | .isStatic => True
  | .clear | .assignN _ _ | .assignRange _ | .forward | .backward => False

/-- all calls of a history leave element `i` alone -/
def KeepsRun (N R : Nat) (E : Elem α) (i : Nat) : List (Op α) → Home → List α → Prop
  | [], _, _ => True
  | op :: ops, h, xs => Keeps N R op h xs.length i ∧
    match step N R E op h xs with
    | some (_, h', xs') => KeepsRun N R E i ops h' xs'
    | none => False

end Spec

/-- where the elements are -/
def St.home (s : St α) : Spec.Home := if s.v.isStatic then .stat else .dyn s.v.cap

/-- the memory with something else in slot `i` of the storage `l` -/
def St.over (s : St α) (l : Loc) (i : Nat) (x : Cell α) : St α :=
  { s with
    v := { s.v with stat := if l = .stat s.v.self then s.v.stat.over i x else s.v.stat }
    heap := fun k => if l = .dyn k then (s.heap k).map fun b => { b with buf := b.buf.over i x } else s.heap k }

/-- the same for the state after a call -/
def overRes {β : Type} (r : Res (St α) β) (l : Loc) (i : Nat) (x : Cell α) : Res (St α) β :=
  match r with
  | .ok a s => .ok a (s.over l i x)
  | .throw e s => .throw e (s.over l i x)
  | .ub => .ub

/-- after the call from `s`, `data()` is the start of `l`, and the storage there has not been given back -/
def AtRes {β : Type} (r : Res (St α) β) (s : St α) (l : Loc) : Prop :=
  match r with
  | .ok _ s' | .throw _ s' => s'.v.bgn = l ∧ ((s.buf l).isSome → (s'.buf l).isSome)
  | .ub => True

theorem AtRes.trans {β : Type} {r : Res (St α) β} {s s' : St α} {l : Loc} (h : (s.buf l).isSome → (s'.buf l).isSome) (hr : AtRes r s' l) :
    AtRes r s l := by
  cases r with
  | ok a t => exact ⟨hr.1, fun q => hr.2 (h q)⟩
  | throw e t => exact ⟨hr.1, fun q => hr.2 (h q)⟩
  | ub => trivial

/-- from the state `s`, `m` does not touch slot `i` of `l` and leaves the elements in `l` -/
def Fr {β : Type} (l : Loc) (i : Nat) (m : M (St α) β) (s : St α) : Prop :=
  (∀ x, m (s.over l i x) = overRes (m s) l i x) ∧ AtRes (m s) s l

variable {β γ : Type} {s : St α} {l : Loc} {i : Nat}

theorem Fr.bind {m : M (St α) β} {f : β → M (St α) γ} (hm : Fr l i m s) (hf : ∀ a s', m s = .ok a s' → s'.v.bgn = l → Fr l i (f a) s') :
    Fr l i (m >>= f) s := by
  constructor
  · intro x
    simp only [M.bind_apply, hm.1 x]
    cases h : m s with
    | ok a s' => exact (hf a s' h (by have := hm.2; rw [h] at this; exact this.1)).1 x
    | throw e s' => rfl
    | ub => rfl
  · simp only [M.bind_apply]
    have h2 := hm.2
    cases h : m s with
    | ok a s' => rw [h] at h2; exact (hf a s' h h2.1).2.trans h2.2
    | throw e s' => rw [h] at h2; exact h2
    | ub => trivial

theorem Fr.get {f : St α → M (St α) β} (he : ∀ x, f (s.over l i x) = f s) (hf : Fr l i (f s) s) : Fr l i (M.get >>= f) s := by
  constructor
  · intro x
    simp only [M.bind_apply, M.get_apply, he x]
    exact hf.1 x
  · exact hf.2

theorem Fr.pure (a : β) (h : s.v.bgn = l) : Fr l i (pure a : M (St α) β) s := ⟨fun _ => rfl, h, id⟩
theorem Fr.undef : Fr l i (M.undef : M (St α) β) s := ⟨fun _ => rfl, trivial⟩
theorem Fr.raise (e : Exc) (h : s.v.bgn = l) : Fr l i (M.raise e : M (St α) β) s := ⟨fun _ => rfl, h, id⟩
theorem Fr.setEnd (l' : Loc) (n : Nat) (h : s.v.bgn = l) : Fr l i (setEnd l' n) s := ⟨fun _ => rfl, h, id⟩

theorem buf_over (x : Cell α) : (s.over l i x).buf l = (s.buf l).map (·.over i x) := by
  cases l with
  | stat k => by_cases h : k = s.v.self <;> simp [St.buf, St.over, h]
  | dyn k => cases h : s.heap k <;> simp [St.buf, St.over, h]

theorem buf_over_ne {l' : Loc} (h : l' ≠ l) (x : Cell α) : (s.over l i x).buf l' = s.buf l' := by
  cases l' with
  | stat k => by_cases hk : k = s.v.self <;> simp [St.buf, St.over, hk]; intro e; exact absurd e.symm (hk ▸ h)
  | dyn k => simp [St.buf, St.over, Ne.symm h]

theorem setBuf_over {b b' : Buf α} (h : s.buf l = some b) (x : Cell α) : (s.over l i x).setBuf l (b'.over i x) = (s.setBuf l b').over l i x := by
  cases l with
  | stat k =>
    by_cases hk : k = s.v.self
    · simp [St.setBuf, St.over, hk]
    · simp [St.buf, hk] at h
  | dyn k =>
    simp only [St.setBuf, St.over, reduceCtorEq, if_false]
    congr 1
    funext j
    by_cases hj : j = k
    · subst hj; cases s.heap j <;> simp
    · have : ¬ k = j := fun e => hj e.symm
      simp [hj, this]

theorem Fr.onLoc {f : Buf α → Option (Buf α)} (h : ∀ b, BFr i f b) (hl : s.v.bgn = l) : Fr l i (onLoc l f) s := by
  constructor
  · intro x
    simp only [SmallVector.onLoc, M.mem, buf_over, Option.bind_eq_bind]
    cases hb : s.buf l with
    | none => rfl
    | some b =>
      simp only [Option.map_some, Option.bind_some, h b x]
      cases hf : f b with
      | none => rfl
      | some b' => simp only [Option.map_some, Option.bind_some, setBuf_over hb, overRes]
  · simp only [SmallVector.onLoc, M.mem, Option.bind_eq_bind]
    cases hb : s.buf l with
    | none => trivial
    | some b =>
      cases hf : f b with
      | none => simp only [Option.bind_some, hf, Option.bind_none]; trivial
      | some b' =>
        simp only [Option.bind_some, hf]
        refine ⟨?_, fun _ => ?_⟩
        · rw [← hl]
          cases hq : s.v.bgn <;> simp [St.setBuf, hq]
        · cases l with
          | stat k => exact (show (s.buf (.stat k)).isSome → _ by unfold St.buf; split <;> simp_all [St.setBuf]) (by simp [hb])
          | dyn k =>
            cases hk : s.heap k with
            | none => simp [St.buf, hk] at hb
            | some c => simp [St.buf, St.setBuf, hk]

/-- what a reference refers to is not the slot -/
def Off (r : Ref α) (l : Loc) (i : Nat) : Prop := match r with
  | .val _ => True
  | .slot l' j => l' ≠ l ∨ j ≠ i

theorem Fr.loadRef {r : Ref α} (h : Off r l i) (hl : s.v.bgn = l) : Fr l i (loadRef r) s := by
  cases r with
  | val a => exact .pure a hl
  | slot l' j =>
    have e : ∀ x, ((s.over l i x).buf l').bind (·.read j) = (s.buf l').bind (·.read j) := by
      intro x
      by_cases hh : l' = l
      · subst hh
        have hj : j ≠ i := h.resolve_left (fun c => c rfl)
        rw [buf_over]
        cases s.buf l' with
        | none => rfl
        | some b => exact read_over hj b x
      · rw [buf_over_ne hh]
    constructor
    · intro x
      simp only [SmallVector.loadRef, M.load, Option.bind_eq_bind, e x]
      cases (s.buf l').bind (·.read j) <;> rfl
    · simp only [SmallVector.loadRef, M.load, Option.bind_eq_bind]
      cases (s.buf l').bind (·.read j)
      · trivial
      · exact ⟨hl, id⟩

theorem Fr.bindRef {v : Arg α} {f : Ref α → M (St α) β} (hv : v ≠ .self i) (hf : ∀ r, Off r l i → Fr l i (f r) s) :
    Fr l i (SmallVector.bindRef v >>= f) s := by
  cases v with
  | val a => exact hf (.val a) trivial
  | self j =>
    have hj : j ≠ i := fun e => hv (by rw [e])
    have := hf (.slot s.v.bgn j) (.inr hj)
    exact this

theorem Fr.size {f : Nat → M (St α) β} (hf : s.v.endp = s.v.bgn → Fr l i (f s.v.endo) s) : Fr l i (SmallVector.size >>= f) s := by
  by_cases h : s.v.endp = s.v.bgn
  · have hf := hf h
    constructor
    · intro x
      have := hf.1 x
      simp only [SmallVector.size, M.bind_apply, M.get_apply, h, if_true, M.pure_apply]
      rw [if_pos (show (s.over l i x).v.endp = (s.over l i x).v.bgn from h)]
      exact this
    · have := hf.2
      simpa only [SmallVector.size, M.bind_apply, M.get_apply, h, if_true, M.pure_apply] using this
  · constructor
    · intro x
      simp only [SmallVector.size, M.bind_apply, M.get_apply]
      rw [if_neg (show ¬ (s.over l i x).v.endp = (s.over l i x).v.bgn from h), if_neg h]
      rfl
    · simp only [SmallVector.size, M.bind_apply, M.get_apply, if_neg h]; trivial

theorem Fr.emplaceAt {j : Nat} (h : j ≠ i) (a : α) (hl : s.v.bgn = l) : Fr l i (emplaceAt l j a) s := by
  have hb := fun b => bfr_construct (i := i) h a b
  rcases ht : s.ctick with _ | _ | k
  · have := Fr.onLoc (s := s) (l := l) (i := i) hb hl
    constructor
    · intro x
      have e := this.1 x
      simp only [SmallVector.emplaceAt, ht, show (s.over l i x).ctick = none from ht]
      exact e
    · simp only [SmallVector.emplaceAt, ht]; exact this.2
  · constructor
    · intro x
      simp only [SmallVector.emplaceAt, ht, show (s.over l i x).ctick = some 0 from ht]
      rfl
    · simp only [SmallVector.emplaceAt, ht]; exact ⟨hl, id⟩
  · have := Fr.onLoc (s := { s with ctick := some k }) (l := l) (i := i) hb hl
    constructor
    · intro x
      have e := this.1 x
      simp only [SmallVector.emplaceAt, ht, show (s.over l i x).ctick = some (k + 1) from ht]
      exact e
    · simp only [SmallVector.emplaceAt, ht]; exact this.2

theorem Fr.at_ {j : Nat} (h : j ≠ i) (hl : s.v.bgn = l) : Fr l i (at_ j) s := by
  refine .size fun _ => ?_
  split
  · exact .get (fun _ => rfl) (.loadRef (.inr h) hl)
  · exact .undef

theorem Fr.back (h : i + 1 ≠ s.v.endo) (hl : s.v.bgn = l) : Fr l i back s := by
  refine .get (fun _ => rfl) ?_
  split
  · exact .undef
  · exact .loadRef (.inr (by omega)) hl

theorem chooseData_stays {P : Params} {d : Nat} (hm : ¬ Spec.moves P.N P.R d s.home) : chooseData P d s = .ok (s.v.bgn, s.v.cap) s := by
  unfold chooseData
  simp only [M.bind_apply, M.get_apply]
  unfold St.home at hm
  split
  · rename_i hs
    rw [if_pos hs] at hm
    simp only [Spec.moves] at hm
    rw [if_neg (by omega)]
    rfl
  · rename_i hs
    rw [if_neg hs] at hm
    simp only [Spec.moves] at hm
    rw [if_neg (by omega), if_neg (by omega)]
    rfl

/-- the elements stay if `choose_data` says so -/
theorem Fr.choose {P : Params} {d : Nat} {f : Loc × Nat → M (St α) β} (hm : ¬ Spec.moves P.N P.R d s.home)
    (hf : Fr l i (f (s.v.bgn, s.v.cap)) s) : Fr l i (chooseData P d >>= f) s := by
  constructor
  · intro x
    simp only [M.bind_apply, chooseData_stays hm, chooseData_stays (s := s.over l i x) hm]
    exact hf.1 x
  · simp only [M.bind_apply, chooseData_stays hm]
    exact hf.2

theorem fr_growAt {P : Params} (E : Elem α) {pos : Int} {num : Nat} (h : (i : Int) < pos) (hl : s.v.bgn = l)
    (hm : ¬ Spec.moves P.N P.R (s.v.endo + num) s.home) : Fr l i (growAt P E pos num) s := by
  refine .size fun _ => ?_
  split
  · exact .raise _ hl
  · refine .choose hm (.get (fun _ => rfl) ?_)
    simp only [if_true]
    refine .bind (.setEnd _ _ hl) fun _ s1 h1 h1' => ?_
    rw [hl]
    exact .bind (.onLoc (fun b => bfr_shiftUp _ _ _ (by omega) _ b) h1') fun _ _ _ h2 => .pure _ h2

theorem growAt_res {P : Params} {E : Elem α} {pos : Int} {num : Nat} {p : Loc × Nat} {s' : St α} (hl : s.v.bgn = l)
    (hm : ¬ Spec.moves P.N P.R (s.v.endo + num) s.home) (h : growAt P E pos num s = .ok p s') : p = (l, pos.toNat) := by
  by_cases he : s.v.endp = s.v.bgn
  · unfold growAt at h
    simp only [SmallVector.size, M.bind_apply, M.get_apply, he, if_true, M.pure_apply] at h
    split at h
    · cases h
    · simp only [M.bind_apply, chooseData_stays hm, M.get_apply, if_true, SmallVector.setEnd, M.modify_apply] at h
      cases hq : SmallVector.onLoc s.v.bgn (Buf.shiftUp E.mv num pos.toNat (s.v.endo - pos.toNat))
        { s with v := { s.v with endp := s.v.bgn, endo := s.v.endo + num } } with
      | ok a t => rw [hq] at h; simp only [M.pure_apply, Res.ok.injEq] at h; rw [← h.1, hl]
      | throw e t => rw [hq] at h; cases h
      | ub => rw [hq] at h; cases h
  · simp only [growAt, SmallVector.size, M.bind_apply, M.get_apply, if_neg he] at h
    cases h

theorem fr_fillAt {r : Ref α} (hr : Off r l i) (p k : Nat) (h : i < p) (hl : s.v.bgn = l) : Fr l i (fillAt r l p k) s := by
  induction k generalizing p s with
  | zero => exact .pure _ hl
  | succ k ih => exact .bind (.loadRef hr hl) fun a _ _ h1 => .bind (.emplaceAt (by omega) a h1) fun _ _ _ h2 => ih (p + 1) (by omega) h2

theorem fr_copyAt (p : Nat) (xs : List α) (h : i < p) (hl : s.v.bgn = l) : Fr l i (copyAt l p xs) s := by
  induction xs generalizing p s with
  | nil => exact .pure _ hl
  | cons a xs ih => exact .bind (.emplaceAt (by omega) a hl) fun _ _ _ h2 => ih (p + 1) (by omega) h2

theorem fr_shrinkAt {P : Params} (E : Elem α) {pos : Int} {num : Nat} (h : (i : Int) < pos) (hl : s.v.bgn = l)
    (hm : ¬ Spec.moves P.N P.R (s.v.endo - num) s.home) : Fr l i (shrinkAt P E pos num) s := by
  refine .size fun _ => ?_
  split
  · exact .raise _ hl
  · rename_i hp
    rw [if_neg (by omega)]
    refine .choose hm (.get (fun _ => rfl) ?_)
    simp only [if_true]
    rw [hl]
    refine .bind (.onLoc (fun b x => ?_) hl) fun _ s1 _ h1 => .bind (.onLoc (fun b => bfr_destroyRange _ (by omega) _ b) h1) fun _ s2 _ h2 =>
      .bind (.setEnd _ _ h2) fun _ s3 _ h3 => .pure _ h3
    exact bfr_shiftDown E.mv s.v.endo (b.cap + 1) pos.toNat (pos.toNat + num) (by omega) (by omega) b x

theorem onLoc_ptrs {l' : Loc} {f : Buf α → Option (Buf α)} {a : Unit} {s' : St α} (h : onLoc l' f s = .ok a s') :
    s'.v.endp = s.v.endp ∧ s'.v.endo = s.v.endo := by
  simp only [onLoc, M.mem, Option.bind_eq_bind] at h
  cases hb : s.buf l' with
  | none => simp [hb] at h
  | some b =>
    cases hf : f b with
    | none => simp [hb, hf] at h
    | some b' =>
      simp only [hb, hf, Option.bind_some, Res.ok.injEq, true_and] at h
      rw [← h]
      cases l' <;> exact ⟨rfl, rfl⟩

theorem emplaceAt_ptrs {l' : Loc} {j : Nat} {b : α} {a : Unit} {s' : St α} (h : emplaceAt l' j b s = .ok a s') :
    s'.v.endp = s.v.endp ∧ s'.v.endo = s.v.endo := by
  unfold emplaceAt at h
  split at h
  · cases h
  · rename_i k _; exact onLoc_ptrs (s := { s with ctick := some k }) h
  · exact onLoc_ptrs h

theorem loadRef_state {r : Ref α} {a : α} {s' : St α} (h : loadRef r s = .ok a s') : s' = s := by
  cases r with
  | val b => simp only [loadRef, M.pure_apply, Res.ok.injEq] at h; exact h.2.symm
  | slot l' j =>
    simp only [loadRef, M.load] at h
    split at h
    · simp only [Res.ok.injEq] at h; exact h.2.symm
    · cases h

theorem fr_popLoop (k : Nat) (hk : i + k < s.v.endo) (hl : s.v.bgn = l) (he : s.v.endp = l) :
    Fr l i (popLoop k) s ∧ ∀ a s', popLoop k s = .ok a s' → s'.v.endp = l ∧ s'.v.endo = s.v.endo - k := by
  induction k generalizing s with
  | zero =>
    refine ⟨.pure _ hl, fun a s' h => ?_⟩
    simp only [popLoop, M.pure_apply, Res.ok.injEq] at h
    rw [← h.2]; exact ⟨he, rfl⟩
  | succ k ih =>
    have key : ∀ s1 s2, setEnd s.v.endp (s.v.endo - 1) s = .ok () s1 → onLoc s.v.endp (·.destroy (s.v.endo - 1)) s1 = .ok () s2 →
        s2.v.endp = l ∧ s2.v.endo = s.v.endo - 1 := by
      intro s1 s2 h1 h2
      have e2 := onLoc_ptrs h2
      simp only [setEnd, M.modify_apply, Res.ok.injEq, true_and] at h1
      rw [e2.1, e2.2, ← h1]
      exact ⟨he, rfl⟩
    constructor
    · refine .get (fun _ => rfl) (.bind (.setEnd _ _ hl) fun _ s1 h1 h1' => .bind ?_ fun _ s2 h2 h2' => ?_)
      · rw [he]; exact .onLoc (fun b => bfr_destroy (by omega) b) h1'
      · obtain ⟨e1, e2⟩ := key s1 s2 h1 h2
        exact (ih (by omega) h2' e1).1
    · intro a s' h
      simp only [popLoop, M.bind_apply, M.get_apply] at h
      cases h1 : setEnd s.v.endp (s.v.endo - 1) s with
      | throw e s1 => rw [h1] at h; cases h
      | ub => rw [h1] at h; cases h
      | ok a1 s1 =>
        rw [h1] at h
        simp only at h
        have b1 : s1.v.bgn = l := (Fr.setEnd (l := l) (i := i) s.v.endp (s.v.endo - 1) hl).2 |> fun q => by rw [h1] at q; exact q.1
        have f2 : Fr l i (onLoc s.v.endp (·.destroy (s.v.endo - 1))) s1 := by
          rw [he]; exact .onLoc (fun b => bfr_destroy (by omega) b) b1
        cases h2 : onLoc s.v.endp (·.destroy (s.v.endo - 1)) s1 with
        | throw e s2 => rw [h2] at h; cases h
        | ub => rw [h2] at h; cases h
        | ok a2 s2 =>
          rw [h2] at h
          obtain ⟨e1, e2⟩ := key s1 s2 h1 h2
          have b2 : s2.v.bgn = l := by have q := f2.2; rw [h2] at q; exact q.1
          obtain ⟨r1, r2⟩ := (ih (s := s2) (by omega) b2 e1).2 a s' h
          exact ⟨r1, by omega⟩

theorem fr_pushLoop {r : Ref α} (hr : Off r l i) (k : Nat) (hk : i < s.v.endo) (hl : s.v.bgn = l) (he : s.v.endp = l) :
    Fr l i (pushLoop r k) s := by
  induction k generalizing s with
  | zero => exact .pure _ hl
  | succ k ih =>
    refine .get (fun _ => rfl) (.bind (.setEnd _ _ hl) fun _ s1 h1 h1' => .bind (.loadRef hr h1') fun a s2 h2 h2' => .bind ?_ fun _ s3 h3 h3' => ?_)
    · rw [he]; exact .emplaceAt (by omega) a h2'
    · have e3 := emplaceAt_ptrs h3
      have e2 := loadRef_state h2
      simp only [setEnd, M.modify_apply, Res.ok.injEq, true_and] at h1
      refine ih ?_ h3' ?_
      · rw [e3.2, e2, ← h1]; show i < s.v.endo + 1; omega
      · rw [e3.1, e2, ← h1]; exact he

theorem fr_resizeV {P : Params} (E : Elem α) {v : Arg α} {n : Nat} (hi : i < s.v.endo) (hn : i < n) (hv : v ≠ .self i) (hc : n ≤ s.v.cap)
    (hl : s.v.bgn = l) : Fr l i (resizeV P E n v) s := by
  refine .bindRef hv fun r hr => ?_
  have hres : ∀ t : St α, t.v.cap = s.v.cap → reserve P E n t = .ok () t := by
    intro t ht
    simp only [reserve, M.bind_apply, M.get_apply]
    rw [if_pos (by omega)]
    rfl
  have fres : Fr l i (reserve P E n) s := by
    constructor
    · intro x; rw [hres s rfl, hres (s.over l i x) rfl]; rfl
    · rw [hres s rfl]; exact ⟨hl, id⟩
  refine .bind fres fun _ s1 h1 h1' => ?_
  rw [hres s rfl] at h1
  simp only [Res.ok.injEq, true_and] at h1
  subst h1
  refine .size fun he => ?_
  have hp := fr_popLoop (s := s) (l := l) (i := i) (s.v.endo - n) (by omega) hl (by rw [he, hl])
  refine .bind hp.1 fun a s2 h2 h2' => ?_
  obtain ⟨e1, e2⟩ := hp.2 a s2 h2
  exact fr_pushLoop hr _ (by omega) h2' e1

theorem home_stat (h : s.home = .stat) : s.v.isStatic = true := by
  unfold St.home at h
  split at h
  · assumption
  · cases h

theorem fr_shrinkToFit {P : Params} (E : Elem α) (h : s.home = .stat ∨ s.v.endo = s.v.cap) (hl : s.v.bgn = l) : Fr l i (shrinkToFit P E) s := by
  refine .size fun _ => .get (fun _ => rfl) ?_
  split
  · exact .pure _ hl
  · rename_i hne
    rw [if_pos (home_stat (h.resolve_right hne))]
    exact .pure _ hl

/-- C83. A call leaves alone the elements in front of the place where it inserts or erases, and those that it has nothing to do with, as long as
the elements need not go to another buffer: with anything else, or nothing, in the slot of such an element it does and returns the same and leaves
that there; `data()` is as before and its storage is not given back. This holds also of calls that throw, and for any state of the vector and the heap. -/
theorem C83_small_vector (P : Params) (E : Elem α) {op : Op α} {s : St α} {i : Nat} (hc : s.v.cap = s.home.cap P.N)
    (h : Spec.Keeps P.N P.R op s.home s.v.endo i) :
    (∀ x, exec P E op (s.over s.v.bgn i x) = overRes (exec P E op s) s.v.bgn i x) ∧ AtRes (exec P E op s) s s.v.bgn := by
  obtain ⟨l, hl⟩ : ∃ l, s.v.bgn = l := ⟨_, rfl⟩
  rw [hl]
  show Fr l i (exec P E op) s
  cases op with
  | pushBack v =>
    obtain ⟨h1, h2, h3⟩ := h
    refine .bind (.bindRef h2 fun r hr => .size fun _ => .bind (fr_growAt E (by omega) hl h3) fun p s1 g1 g2 => ?_) fun _ _ _ hq => .pure _ hq
    rw [growAt_res hl h3 g1]
    exact .bind (.loadRef hr g2) fun a s2 _ h2' => .emplaceAt (by simp only [Int.toNat_natCast]; omega) a h2'
  | emplaceBack v =>
    obtain ⟨h1, h2, h3⟩ := h
    refine .bind (.bindRef h2 fun r hr => .size fun _ => .bind (fr_growAt E (by omega) hl h3) fun p s1 g1 g2 => ?_) fun _ _ _ hq => .pure _ hq
    rw [growAt_res hl h3 g1]
    exact .bind (.loadRef hr g2) fun a s2 _ h2' => .bind (.emplaceAt (by simp only [Int.toNat_natCast]; omega) a h2') fun _ _ _ hq => .pure _ hq
  | popBack =>
    obtain ⟨h1, h2⟩ := h
    exact .bind (.size fun _ => .bind (fr_shrinkAt E (by omega) hl h2) fun _ _ _ hq => .pure _ hq) fun _ _ _ hq => .pure _ hq
  | insert pos v =>
    obtain ⟨h1, h2, h3⟩ := h
    refine .bind (.bindRef h2 fun r hr => .bind (fr_growAt E h1 hl h3) fun p s1 g1 g2 => ?_) fun _ _ _ hq => .pure _ hq
    rw [growAt_res hl h3 g1]
    exact .bind (.loadRef hr g2) fun a s2 _ h2' => .bind (.emplaceAt (by omega) a h2') fun _ _ _ hq => .pure _ hq
  | insertN pos n v =>
    obtain ⟨h1, h2, h3⟩ := h
    refine .bind (.bindRef h2 fun r hr => .bind (fr_growAt E h1 hl h3) fun p s1 g1 g2 => ?_) fun _ _ _ hq => .pure _ hq
    rw [growAt_res hl h3 g1]
    exact .bind (fr_fillAt hr _ n (by omega) g2) fun _ _ _ hq => .pure _ hq
  | insertRange pos xs =>
    obtain ⟨h1, h3⟩ := h
    refine .bind (.bind (fr_growAt E h1 hl h3) fun p s1 g1 g2 => ?_) fun _ _ _ hq => .pure _ hq
    rw [growAt_res hl h3 g1]
    exact .bind (fr_copyAt _ xs (by omega) g2) fun _ _ _ hq => .pure _ hq
  | erase pos => exact .bind (fr_shrinkAt E h.1 hl h.2) fun _ _ _ hq => .pure _ hq
  | eraseRange f l' =>
    refine .bind ?_ fun _ _ _ hq => .pure _ hq
    unfold eraseRange
    split
    · exact .raise _ hl
    · exact fr_shrinkAt E h.1 hl h.2
  | clear => exact h.elim
  | resize n => exact .bind (fr_resizeV E h.1 h.2.1 (by intro e; cases e) (by rw [hc]; exact h.2.2) hl) fun _ _ _ hq => .pure _ hq
  | resizeV n v => exact .bind (fr_resizeV E h.1 h.2.1 h.2.2.1 (by rw [hc]; exact h.2.2.2) hl) fun _ _ _ hq => .pure _ hq
  | assignN n v => exact h.elim
  | assignRange xs => exact h.elim
  | reserve n =>
    have h' : n ≤ s.v.cap := by rw [hc]; exact h
    refine .bind (.get (fun _ => rfl) ?_) fun _ _ _ hq => .pure _ hq
    rw [if_pos h']
    exact .pure _ hl
  | shrinkToFit => exact .bind (fr_shrinkToFit E (by rw [hc]; exact h) hl) fun _ _ _ hq => .pure _ hq
  | revertToStatic =>
    refine .bind (.size fun _ => .get (fun _ => rfl) ?_) fun _ _ _ hq => .pure _ hq
    split
    · exact .pure _ hl
    · rename_i hs
      have h' : P.N < s.v.endo := h.resolve_left fun e => hs (home_stat e)
      rw [if_pos h']
      exact .pure _ hl
  | get j => exact .bind (.at_ (Ne.symm h) hl) fun _ _ _ hq => .pure _ hq
  | getBack => exact .bind (.back h hl) fun _ _ _ hq => .pure _ hq
  | front => exact .bind (.at_ (Ne.symm h) hl) fun _ _ _ hq => .pure _ hq
  | set j v =>
    refine .bind (.bindRef h.2 fun r hr => .bind (.loadRef hr hl) fun a s1 _ h1 => .bind (.at_ h.1.symm h1) fun _ s2 _ h2 =>
      .get (fun _ => rfl) ?_) fun _ _ _ hq => .pure _ hq
    rw [h2]
    exact .onLoc (fun b => bfr_assign h.1.symm a b) h2
  | moveElem j k =>
    refine .bind (.bind (.at_ h.2.symm hl) fun a _ _ h1 => .bind (.at_ h.1.symm h1) fun _ s2 _ h2 => ?_) fun _ _ _ hq => .pure _ hq
    split
    · exact .undef
    · refine .get (fun _ => rfl) ?_
      rw [h2]
      exact .bind (.onLoc (fun b => bfr_assign h.1.symm a b) h2) fun _ _ _ h3 => .onLoc (fun b => bfr_assign h.2.symm (E.mv a) b) h3
  | isEmpty => exact .bind (.get (fun _ => rfl) (.pure _ hl)) fun _ _ _ hq => .pure _ hq
  | forward => exact h.elim
  | backward => exact h.elim
  | size => exact .size fun _ => .pure _ hl
  | capacity => exact .get (fun _ => rfl) (.pure _ hl)
  | isStatic => exact .get (fun _ => rfl) (.pure _ hl)

/-- a call whose exceptions are caught -/
theorem call_over (P : Params) (E : Elem α) {op : Op α} {s : St α} {i : Nat} (hc : s.v.cap = s.home.cap P.N)
    (h : Spec.Keeps P.N P.R op s.home s.v.endo i) (x : Cell α) :
    call P E op (s.over s.v.bgn i x) = (call P E op s).map fun p => (p.1, p.2.over s.v.bgn i x) := by
  simp only [call, (C83_small_vector P E hc h).1 x]
  cases exec P E op s <;> rfl

/-- and `data()` after it -/
theorem call_bgn (P : Params) (E : Elem α) {op : Op α} {s s' : St α} {i : Nat} {r : Reply α} (hc : s.v.cap = s.home.cap P.N)
    (h : Spec.Keeps P.N P.R op s.home s.v.endo i) (hr : call P E op s = some (r, s')) : s'.v.bgn = s.v.bgn := by
  have := (C83_small_vector P E hc h).2
  simp only [call] at hr
  cases he : exec P E op s with
  | ub => rw [he] at hr; cases hr
  | ok a t => rw [he] at hr this; cases hr; exact this.1
  | throw e t => rw [he] at hr this; cases hr; exact this.1

theorem over_self {b : Buf α} (h : s.buf l = some b) : s.over l i (b.cells i) = s := by
  have hb : b.over i (b.cells i) = b := by simp [Buf.over]
  cases l with
  | stat k =>
    by_cases hk : k = s.v.self
    · simp only [St.buf, hk, if_true, Option.some.injEq] at h
      simp only [St.over, hk, if_true, reduceCtorEq, if_false, h, hb]
      rw [← h]
    · simp [St.buf, hk] at h
  | dyn k =>
    cases hk : s.heap k with
    | none => simp [St.buf, hk] at h
    | some c =>
      simp only [St.buf, hk, Option.map_some, Option.some.injEq] at h
      have : (fun j => if Loc.dyn k = Loc.dyn j then (s.heap j).map fun d => { d with buf := d.buf.over i (b.cells i) } else s.heap j) = s.heap := by
        funext j
        by_cases hj : k = j
        · subst hj; simp [hk, h, hb]; rw [← h]
        · simp [hj]
      simp only [St.over, reduceCtorEq, if_false, this]

/-- the state after a call, if its behaviour is defined -/
def after {β : Type} : Res (St α) β → Option (St α)
  | .ok _ s | .throw _ s => some s
  | .ub => none

/-- C83, what the owner of a pointer sees: the object it points to is the same after the call. -/
theorem C83_small_vector_value (P : Params) (E : Elem α) {op : Op α} {s : St α} {i : Nat} (hc : s.v.cap = s.home.cap P.N)
    (h : Spec.Keeps P.N P.R op s.home s.v.endo i) {b : Buf α} (hb : s.buf s.v.bgn = some b) {s' : St α}
    (hs : after (exec P E op s) = some s') : s'.v.bgn = s.v.bgn ∧ ∃ b', s'.buf s.v.bgn = some b' ∧ b'.cells i = b.cells i := by
  obtain ⟨h1, h2⟩ := C83_small_vector P E hc h
  have h1 := h1 (b.cells i)
  rw [over_self hb] at h1
  have key : s' = s'.over s.v.bgn i (b.cells i) ∧ s'.v.bgn = s.v.bgn ∧ (s'.buf s.v.bgn).isSome := by
    cases he : exec P E op s with
    | ub => rw [he] at hs; cases hs
    | ok a t =>
      rw [he] at h1 h2 hs
      simp only [overRes, Res.ok.injEq, true_and] at h1
      simp only [after, Option.some.injEq] at hs
      rw [← hs]
      exact ⟨h1, h2.1, h2.2 (by simp [hb])⟩
    | throw e t =>
      rw [he] at h1 h2 hs
      simp only [overRes, Res.throw.injEq, true_and] at h1
      simp only [after, Option.some.injEq] at hs
      rw [← hs]
      exact ⟨h1, h2.1, h2.2 (by simp [hb])⟩
  obtain ⟨k1, k2, k3⟩ := key
  obtain ⟨b', hb'⟩ := Option.isSome_iff_exists.mp k3
  refine ⟨k2, b', hb', ?_⟩
  have k4 := congrArg (fun t : St α => t.buf s.v.bgn) k1
  simp only [buf_over, hb', Option.map_some, Option.some.injEq] at k4
  rw [k4]
  simp [Buf.over]

end Itlib.SmallVector
