import Verif.StaticVector.MoveFault

/-! # Programs in which moves of elements throw refine the specification (proof engineering) -/
namespace Itlib.StaticVector
open Itlib Spec
variable {α : Type}

theorem late_done {f : M (MV α) Unit} {g : M (Store α) Unit} {st : Store α} {n : Nat} (h : Late f g st n) :
    Late (f >>= fun _ => pure (Reply.done : Reply α)) (g >>= fun _ => pure .done) st n :=
  late_bind (n' := 0) h fun _ st' _ => late_pure _ st'

/-- a member function on an armed vector -/
theorem late_call {i : Nat} {c : Option Nat} {f : M (MV α) Nat} {g : M (SV α) Nat} {st : Store α} {n : Nat}
    (h : Late f (at' i g) (arm i c st) n) :
    Late (lift (M.modify (arm i c)) >>= fun _ => f >>= fun p => pure (Reply.at p : Reply α))
      (M.modify (arm i c) >>= fun _ => at' i (g >>= fun p => pure (.at p))) st n := by
  refine late_then fun _ st' h' => ?_
  simp only [M.modify_apply, Res.ok.injEq, true_and] at h'
  subst h'
  rw [at'_bind]
  exact late_bind (n' := 0) h fun p st' h' => late_pure_at (at'_some h') _

theorem cap_size_read {j cap : Nat} {ys : List α} {st : Store α} (hj : st.vec j = some (rep cap ys)) :
    at' j (do let s ← M.get; pure (s.buf.cap, s.size)) st = .ok (cap, ys.length) st :=
  at'_read hj rfl

theorem moveCtorT_late (E : Elem α) (T : Torn α) {i j cap : Nat} {ys : List α} {st : Store α} (hi : st.vec i = none)
    (hj : st.vec j = some (rep cap ys)) (hl : ys.length ≤ cap) :
    Late (moveCtorT E T i j) (moveCtor E i j) st ys.length := by
  have hne : i ≠ j := by rintro rfl; simp [hi] at hj
  unfold moveCtorT moveCtor
  refine late_then fun b st' h1 => ?_
  rw [cap_size_read hj] at h1
  simp only [Res.ok.injEq] at h1
  obtain ⟨rfl, rfl⟩ := h1
  refine late_then fun b st' h1 => ?_
  simp only [construct, hi, Res.ok.injEq, true_and] at h1
  subst h1
  have hj' : (st.put i (some (empty cap none))).vec j = some (rep cap ys) := by rw [put_vec_ne _ _ hne.symm]; exact hj
  have hb : Late (do moveFromLoopT E T i j 0 ys.length; lift (at' j clear) : M (MV α) Unit)
      (do moveFromLoop E i j 0 ys.length; at' j clear) (st.put i (some (empty cap none))) ys.length :=
    late_bind (n' := 0) (moveFromLoopT_late E T hne ys.length 0 _ _ hj' (by simp)) fun _ _ _ => late_lift _ _
  obtain ⟨xs', h2, h3⟩ := moveFromLoop_rep E hne ys.length 0 ys [] (st.put i (some (empty cap none))) hj'
    (by rw [put_vec_self, empty_eq_rep]) (by omega) (by simpa using hl) hl
  intro m hm
  have := hb m hm
  simp only [M.bind_apply, h3, at'_ok (put_vec_self _ _ _) (clear_rep (show xs'.length ≤ cap by omega))] at this ⊢
  simp only [ctorBodyT, M.bind_apply, this]

theorem moveAssignT_late (E : Elem α) (T : Torn α) {i j : Nat} {st : Store α} {s : SV α} (hne : i ≠ j)
    (hj : st.vec j = some s) : Late (moveAssignT E T i j) (moveAssign E i j) st s.size := by
  unfold moveAssignT moveAssign
  refine late_then fun b st' h1 => ?_
  rw [size_read hj] at h1
  simp only [Res.ok.injEq] at h1
  obtain ⟨rfl, rfl⟩ := h1
  refine late_then fun b st' h1 => ?_
  refine late_bind (n' := 0) (moveFromLoopT_late E T hne s.size 0 _ s ?_ (by simp)) fun _ _ _ => late_lift _ _
  rw [at'_other h1 hne.symm]
  exact hj

/-- with a throw point beyond all moves, a call does what it does if moves do not throw -/
theorem vexec_late (E : Elem α) (T : Torn α) (c : Option Nat) {op : MOp α} {y : Sys α} {g : List (Buf α)} (hy : Good y)
    (hs : MSafe op y) (h : (mstep E op y).isSome) : Late (vexec E T c op) (texec E c op) (mrep y g) (moves op y) := by
  have other : ∀ f : M (Store α) (Reply α), Late (lift f) f (mrep y g) 0 := fun f => late_lift f _
  cases op with
  | ctor i cap => exact other _
  | ctorCount i cap n => exact other _
  | ctorVal i cap n a => exact other _
  | ctorRange i cap xs => exact other _
  | copyCtor i cap j => exact other _
  | copyAssign i j => exact other _
  | dtor i => exact other _
  | moveCtor i j =>
    obtain ⟨⟨r, y'⟩, h⟩ := Option.isSome_iff_exists.mp h
    simp only [mstep, Option.bind_eq_bind, Option.bind_eq_some_iff] at h
    obtain ⟨⟨cap, ys⟩, hj, h⟩ := h
    have hi : y i = none := by
      cases hi : y i with
      | none => rfl
      | some p => simp [hi] at h
    have := moveCtorT_late E T (mrep_vec_none (g := g) hi) (mrep_vec hj) (hy j cap ys hj).1
    have := late_done this
    simp only [moves, len, hj]
    exact this
  | moveAssign i j =>
    obtain ⟨⟨r, y'⟩, h⟩ := Option.isSome_iff_exists.mp h
    simp only [mstep, Option.bind_eq_bind, Option.bind_eq_some_iff] at h
    obtain ⟨_, _, ⟨cap, ys⟩, hj, h⟩ := h
    have := moveAssignT_late E T (st := mrep y g) hs (mrep_vec hj)
    have := late_done this
    simp only [moves, len, hj]
    exact this
  | swap i j =>
    obtain ⟨⟨r, y'⟩, h⟩ := Option.isSome_iff_exists.mp h
    simp only [mstep, Option.bind_eq_bind, Option.bind_eq_some_iff] at h
    obtain ⟨⟨capi, xs⟩, hi, ⟨cap, ys⟩, hj, h⟩ := h
    have := swapT_late E T (st := mrep y g) (mrep_vec hi) (mrep_vec hj)
    have := late_done this
    simp only [moves, len, hj, hi]
    exact this
  | call i op =>
    obtain ⟨⟨r, y'⟩, h⟩ := Option.isSome_iff_exists.mp h
    simp only [mstep, Option.bind_eq_bind, Option.bind_eq_some_iff] at h
    obtain ⟨⟨cap, xs⟩, hi, ⟨r', xs'⟩, hst, h⟩ := h
    obtain ⟨hl, hcap⟩ := hy i cap xs hi
    have hm : cap < sizeMod := by simp only [sizeMod]; omega
    have hv : (arm i c (mrep y g)).vec i = some ((rep cap xs).tk c) := by rw [arm_mrep hi, put_vec_self]
    have hs' := hs cap xs hi
    -- a call that does not fit throws before it moves anything
    have full : ∀ {f : M (MV α) Nat} {gg : M (SV α) Nat} {n : Nat}, Late f (at' i gg) (arm i c (mrep y g)) n →
        (∃ pos by_, cap < xs.length + by_ ∧ xs.length + by_ < sizeMod ∧
          (∃ f' : Nat → M (MV α) Nat, f = growAtT E T i pos by_ >>= f') ∧ ∃ g', gg = growAt E pos by_ >>= g') →
        Late f (at' i gg) (arm i c (mrep y g)) 0 := by
      rintro f gg n hL ⟨pos, by_, hb, hb', ⟨f', rfl⟩, g', rfl⟩ m _
      have h1 : cap < (xs.length + by_) % sizeMod := by rw [Nat.mod_eq_of_lt hb']; exact hb
      have e1 : at' i (growAt E pos by_) (arm i c (mrep y g)) = .throw .outOfRange (arm i c (mrep y g)) := by
        rw [at'_throw hv (e := .outOfRange) (v' := (rep cap xs).tk c) (by simp [growAt, outOfRangeIf, h1]), put_same _ hv]
      have e2 : at' i (growAt E pos by_ >>= g') (arm i c (mrep y g)) = .throw .outOfRange (arm i c (mrep y g)) := by
        rw [at'_bind, M.bind_apply, e1]
      have h3 : lift (at' i (outOfRangeIf ((((rep cap xs).tk c).size + by_) % sizeMod > ((rep cap xs).tk c).buf.cap)))
          ⟨arm i c (mrep y g), m⟩ = .throw .outOfRange ⟨arm i c (mrep y g), m⟩ := by
        have : at' i (outOfRangeIf ((((rep cap xs).tk c).size + by_) % sizeMod > ((rep cap xs).tk c).buf.cap))
            (arm i c (mrep y g)) = .throw .outOfRange (arm i c (mrep y g)) := by
          rw [at'_throw hv (e := .outOfRange) (v' := (rep cap xs).tk c) (by simp [outOfRangeIf, h1]), put_same _ hv]
        simp only [lift, this]
      rw [e2]
      refine ⟨m, ?_⟩
      simp only [growAtT, M.bind_apply]
      rw [lift_ok (at'_get hv)]
      simp only
      rw [h3]
    cases op with
    | insert pos v =>
      have := insertT_late E T (pos := pos) (v := v) hv
      simp only [moves, hi, vmoves]
      split
      · exact late_call this
      · exact late_call (full this ⟨pos, 1, by omega, by simp only [sizeMod]; omega, ⟨_, rfl⟩, _, rfl⟩)
    | insertN pos n v =>
      have := insertNT_late E T (pos := pos) (n := n) (v := v) hv
      have hb : xs.length + n < 2 ^ 64 := hs'.1
      simp only [moves, hi, vmoves]
      by_cases h1 : n = 0
      · rw [if_neg (by simp [h1])]
        rw [if_pos h1] at this
        exact late_call this
      · by_cases h2 : xs.length + n ≤ cap
        · rw [if_pos ⟨h1, h2⟩]
          rw [if_neg h1] at this
          exact late_call this
        · rw [if_neg (fun h => h2 h.2)]
          exact late_call (full this ⟨pos, n, by omega, by simp only [sizeMod]; omega, ⟨_, rfl⟩, _, rfl⟩)
    | insertRange pos zs =>
      have := insertRangeT_late E T (pos := pos) (xs := zs) hv
      have hb : xs.length + zs.length < 2 ^ 64 := hs'
      simp only [moves, hi, vmoves]
      by_cases h1 : zs = []
      · rw [if_neg (by simp [h1])]
        rw [if_pos (by simp [h1])] at this
        exact late_call this
      · by_cases h2 : xs.length + zs.length ≤ cap
        · rw [if_pos ⟨h1, h2⟩]
          rw [if_neg (by simpa using h1)] at this
          exact late_call this
        · rw [if_neg (fun h => h2 h.2)]
          exact late_call (full this ⟨pos, zs.length, by omega, by simp only [sizeMod]; omega, ⟨_, rfl⟩, _, rfl⟩)
    | erase pos =>
      have hp : pos < xs.length := by
        simp only [step] at hst
        split at hst
        · assumption
        · simp at hst
      simp only [moves, hi, vmoves]
      exact late_call (shrinkAtT_late E T hv (show pos + 1 ≤ xs.length by omega))
    | eraseRange f l =>
      have hp : f ≤ l ∧ l ≤ xs.length := by
        simp only [step] at hst
        split at hst
        · assumption
        · simp at hst
      simp only [moves, hi, vmoves]
      have := shrinkAtT_late E T hv (cp := f) (num := l - f) (show f + (l - f) ≤ xs.length by omega)
      rw [show f + (l - f) = l by omega] at this
      refine late_call (f := eraseRangeT E T i f l) (g := eraseRange E f l) ?_
      unfold eraseRangeT eraseRange
      rw [if_pos hp.1, if_pos hp.1]
      exact this
    | popBack =>
      simp only [moves, hi, vmoves, vexec, texec, exec]
      refine late_then fun _ st' h' => ?_
      simp only [M.modify_apply, Res.ok.injEq, true_and] at h'
      subst h'
      rw [at'_bind]
      refine late_bind (n := 0) (n' := 0) ?_ fun p st' h' => late_pure_at (at'_some h') _
      unfold popBackT popBack
      rw [at'_bind]
      refine late_then fun b st' h' => ?_
      rw [at'_get hv] at h'
      simp only [Res.ok.injEq] at h'
      obtain ⟨rfl, rfl⟩ := h'
      rw [at'_bind]
      refine late_bind (n := 0) (n' := 0) ?_ fun p st' h' => late_pure_at (at'_some h') _
      by_cases h0 : xs.length = 0
      · intro m _
        have e : at' i (shrinkAt E (((rep cap xs).tk c).size - 1) 1) (arm i c (mrep y g)) = .throw .outOfRange (arm i c (mrep y g)) := by
          rw [at'_throw hv (e := .outOfRange) (v' := (rep cap xs).tk c) (by simp [shrinkAt, outOfRangeIf, h0]), put_same _ hv]
        have h3 : lift (at' i (outOfRangeIf (1 > ((rep cap xs).tk c).size)))
            ⟨arm i c (mrep y g), m⟩ = .throw .outOfRange ⟨arm i c (mrep y g), m⟩ := by
          have : at' i (outOfRangeIf (1 > ((rep cap xs).tk c).size))
              (arm i c (mrep y g)) = .throw .outOfRange (arm i c (mrep y g)) := by
            rw [at'_throw hv (e := .outOfRange) (v' := (rep cap xs).tk c) (by simp [outOfRangeIf, h0]), put_same _ hv]
          simp only [lift, this]
        rw [e]
        refine ⟨m, ?_⟩
        simp only [shrinkAtT, M.bind_apply]
        rw [lift_ok (at'_get hv)]
        simp only
        rw [h3]
      · have := shrinkAtT_late E T hv (cp := xs.length - 1) (num := 1) (show xs.length - 1 + 1 ≤ xs.length by omega)
        exact late_n this (by simp only [tk_size, rep_size]; omega)
    | _ =>
      simp only [moves, hi, vmoves]
      exact other _

/-- what the specification says of a call with throw points happens -/
def VRefined (E : Elem α) (T : Torn α) (nx : Bool) (t : VOp α) (y : Sys α) (g : List (Buf α)) : Prop :=
  match vstep E T nx t y with
  | some (r, lost, y') => ∃ g', dead g' = lost ∧ Good y' ∧ vcall E T nx t (mrep y g) = .ret r (mrep y' (g' ++ g))
  | none =>
    (vcall E T nx t (mrep y g) = .terminated ∧ nx = true ∧ ∃ i j, t.op = .moveAssign i j) ∨
    ∃ v st, vcall E T nx t (mrep y g) = .ret (.exc .element) st ∧ destruct v st = .ub

theorem length_tornLast (T : Torn α) (xs : List α) : (tornLast T xs).length = xs.length := by
  rw [tornLast]
  cases h : xs.getLast? with
  | none => rfl
  | some a =>
    have : xs ≠ [] := by rintro rfl; simp at h
    have := List.length_pos_iff.mpr this
    simp; omega

theorem length_torn (E : Elem α) (T : Torn α) (k : Nat) (xs : List α) : (torn E T k xs).length = xs.length := by
  simp only [torn, List.length_append, List.length_map, List.length_take]
  cases h : xs.drop k with
  | nil =>
    have := congrArg List.length h
    simp only [List.length_drop, List.length_nil] at this
    simp; omega
  | cons a as =>
    have := congrArg List.length h
    simp only [List.length_drop, List.length_cons] at this
    simp only [List.length_cons]
    omega

theorem vcall_mrep (E : Elem α) (T : Torn α) (nx : Bool) {t : VOp α} {y : Sys α} {g : List (Buf α)} (hy : Good y)
    (hs : VSafe t y) (h : (mstep E t.op y).isSome) : VRefined E T nx t y g := by
  obtain ⟨op, c, m⟩ := t
  obtain ⟨hs, hself⟩ := hs
  simp only at hs hself h
  obtain ⟨p0, h0⟩ := Option.isSome_iff_exists.mp h
  rcases fault_cases m (moves op y) with ⟨h1, h2⟩ | ⟨k, rfl, h4, h5⟩
  · have hL := vexec_late E T c (g := g) hy hs h m h2
    have hR := tcall_mrep (t := ⟨op, c⟩) (g := g) E hy hs h
    have hv : vstep E T nx ⟨op, c, m⟩ y = mtstep E ⟨op, c⟩ y := by
      simp only [vstep, h0, h1, Option.bind_eq_bind, Option.bind_some]
    -- without throwing moves a call ends as in `tcall`
    have hc : ∀ r st, tcall E ⟨op, c⟩ (mrep y g) = some (r, st) → (sealed nx op = true → ∀ e, r ≠ .exc e) →
        vcall E T nx ⟨op, c, m⟩ (mrep y g) = .ret r st := by
      intro r st ht hse
      simp only [tcall] at ht
      cases e : texec E c op (mrep y g) with
      | ok b st' =>
        rw [e] at ht hL
        simp only [Option.some.injEq, Prod.mk.injEq] at ht
        simp only [vcall, hL, ht]
      | throw x st' =>
        rw [e] at ht hL
        obtain ⟨m', hL⟩ := hL
        simp only [Option.some.injEq, Prod.mk.injEq] at ht
        obtain ⟨rfl, rfl⟩ := ht
        simp only [vcall, hL]
        rw [if_neg (fun h => hse h x rfl)]
      | ub => rw [e] at ht; simp at ht
    simp only [VRefined, hv]
    simp only [Refined] at hR
    cases e : mtstep E ⟨op, c⟩ y with
    | some p =>
      obtain ⟨r, lost, y'⟩ := p
      rw [e] at hR
      obtain ⟨g', h6, h7, h8⟩ := hR
      refine ⟨g', h6, h7, hc _ _ h8 ?_⟩
      intro hse x
      cases op with
      | moveAssign i j =>
        simp only [mtstep, h0, Option.bind_eq_bind, Option.bind_some, Option.some.injEq, Prod.mk.injEq] at e
        rw [← e.1]
        simp only [mstep, Option.bind_eq_bind, Option.bind_eq_some_iff] at h0
        obtain ⟨⟨ci, xs⟩, _, ⟨cj, ys⟩, _, h0⟩ := h0
        simp only at h0
        split at h0
        · split at h0 <;> simp only [Option.some.injEq] at h0 <;> rw [← h0] <;> simp
        · simp at h0
      | _ => simp [sealed] at hse
    | none =>
      rw [e] at hR
      obtain ⟨i, op', rfl, st, h6, h7⟩ := hR
      exact Or.inr ⟨i, st, hc _ _ h6 (by simp [sealed]), h7⟩
  · have hnot : ∀ n, moves op y = n → 0 < n := fun n hn => by omega
    cases op with
    | ctor i cap => simp [moves] at h4
    | ctorCount i cap n => simp [moves] at h4
    | ctorVal i cap n a => simp [moves] at h4
    | ctorRange i cap xs => simp [moves] at h4
    | copyCtor i cap j => simp [moves] at h4
    | copyAssign i j => simp [moves] at h4
    | dtor i => simp [moves] at h4
    | moveCtor i j =>
      simp only [mstep, Option.bind_eq_bind, Option.bind_eq_some_iff] at h0
      obtain ⟨⟨cap, ys⟩, hj, h0'⟩ := h0
      have hi : y i = none := by
        cases hi : y i with
        | none => rfl
        | some p => simp [hi] at h0'
      have hne : i ≠ j := by rintro rfl; simp [hi] at hj
      obtain ⟨hl, hcap⟩ := hy j cap ys hj
      have hk : k < ys.length := by simpa [moves, len, hj] using h4
      obtain ⟨q0, h0⟩ := Option.isSome_iff_exists.mp h
      have e : vstep E T nx ⟨.moveCtor i j, c, some k⟩ y =
          some (.exc .element, ys.take k, y.put j (some (cap, torn E T k ys))) := by
        simp only [vstep, h0, h5, hj, Option.bind_eq_bind, Option.bind_some]
      simp only [VRefined, e]
      refine ⟨[Buf.ofList cap (ys.take k)], dead_one (by simp; omega), good_put hy (by rw [length_torn]; exact hl) hcap, ?_⟩
      have h1 := moveFromLoopT_fault E T hne k 0 ys.length ys [] ((mrep y g).put i (some (empty cap none)))
        (cd := cap) (cs := cap) (by rw [put_vec_ne _ _ hne.symm]; exact mrep_vec hj)
        (by rw [put_vec_self, empty_eq_rep]) (by omega) (by simpa using hl) hl hk
      simp only [List.drop_zero, List.nil_append, List.take_zero, put_put] at h1
      have h2 : construct i cap none (mrep y g) = .ok () ((mrep y g).put i (some (empty cap none))) := by
        simp only [construct, mrep_vec_none hi]
      have h3 : bury i (((mrep y g).put i (some (rep cap (ys.take k)))).put j (some (rep cap (torn E T k ys)))) =
          mrep (y.put j (some (cap, torn E T k ys))) ([Buf.ofList cap (ys.take k)] ++ g) := by
        rw [put_comm _ _ _ hne, mrep_put]
        exact bury_put (c := none) (by simp [Sys.put, hne, hi])
      simp only [vcall, vexec, moveCtorT, M.bind_apply]
      rw [lift_ok (cap_size_read (mrep_vec hj))]
      simp only
      rw [lift_ok h2]
      simp only [ctorBodyT, M.bind_apply, h1, h3, sealed, disarm_mrep]
      rfl
    | moveAssign i j =>
      simp only [mstep, Option.bind_eq_bind, Option.bind_eq_some_iff] at h0
      obtain ⟨⟨capi, xs⟩, hi, ⟨cap, ys⟩, hj, h0'⟩ := h0
      have hcc : capi = cap := by
        by_contra hcc
        simp [hcc] at h0'
      subst hcc
      have hne : i ≠ j := hs
      obtain ⟨hl, hcap⟩ := hy j _ ys hj
      obtain ⟨hl', -⟩ := hy i _ xs hi
      have hk : k < ys.length := by simpa [moves, len, hj] using h4
      obtain ⟨q0, h0⟩ := Option.isSome_iff_exists.mp h
      have h1 := moveFromLoopT_fault E T hne k 0 ys.length ys [] ((mrep y g).put i (some (rep capi [])))
        (cd := capi) (cs := capi) (by rw [put_vec_ne _ _ hne.symm]; exact mrep_vec hj)
        (by rw [put_vec_self]) (by omega) (by simpa using hl) hl hk
      simp only [List.drop_zero, List.nil_append, List.take_zero, put_put] at h1
      have h2 : vexec E T c (.moveAssign i j) ⟨mrep y g, some k⟩ = .throw .element
          ⟨mrep ((y.put i (some (capi, ys.take k))).put j (some (capi, torn E T k ys))) g, none⟩ := by
        simp only [vexec, moveAssignT, M.bind_apply]
        rw [lift_ok (size_read (mrep_vec hj))]
        simp only [rep_size]
        rw [lift_ok (at'_ok (mrep_vec hi) (clear_rep hl'))]
        simp only
        rw [h1]
        simp only [mrep_put]
      cases nx with
      | false =>
        have e : vstep E T false ⟨.moveAssign i j, c, some k⟩ y =
            some (.exc .element, [], (y.put i (some (capi, ys.take k))).put j (some (capi, torn E T k ys))) := by
          simp only [vstep, h0, h5, hj, Option.bind_eq_bind, Option.bind_some, Bool.false_eq_true, if_false]
        simp only [VRefined, e]
        refine ⟨[], rfl, good_put (good_put hy (by simp; omega) hcap) (by rw [length_torn]; exact hl) hcap, ?_⟩
        simp only [vcall, h2, sealed, Bool.false_eq_true, if_false, disarm_mrep, List.nil_append]
      | true =>
        have e : vstep E T true ⟨.moveAssign i j, c, some k⟩ y = none := by
          simp only [vstep, h0, h5, hj, Option.bind_eq_bind, Option.bind_some, if_true]
        simp only [VRefined, e]
        exact Or.inl ⟨by simp only [vcall, h2, sealed, if_true], trivial, i, j, rfl⟩
    | swap i j =>
      simp only [mstep, Option.bind_eq_bind, Option.bind_eq_some_iff] at h0
      obtain ⟨⟨cap, xs⟩, hi, ⟨capj, ys⟩, hj, h0'⟩ := h0
      have hcc : cap = capj := by
        by_contra hcc
        simp [hcc] at h0'
      subst hcc
      have hne : i ≠ j := by
        rintro rfl
        have := hself i rfl
        simp at this
      obtain ⟨hl, hcap⟩ := hy j _ ys hj
      obtain ⟨hl', -⟩ := hy i _ xs hi
      simp only [moves, len, hi, hj] at h4
      obtain ⟨q0, h0⟩ := Option.isSome_iff_exists.mp h
      simp only [VRefined, vstep, h0, h5, hi, hj, Option.bind_eq_bind, Option.bind_some]
      have hx : swapT E T i j ⟨mrep y g, some k⟩ =
          (if xs.length < ys.length then
            (do swapLoopT E T i j 0 xs.length
                swapTailT E T i j xs.length (ys.length - xs.length)
                lift (at' j (M.modify fun s => { s with size := xs.length })) : M (MV α) Unit) ⟨mrep y g, some k⟩
          else
            (do swapLoopT E T j i 0 ys.length
                swapTailT E T j i ys.length (xs.length - ys.length)
                lift (at' i (M.modify fun s => { s with size := ys.length })) : M (MV α) Unit) ⟨mrep y g, some k⟩) := by
        simp only [swapT]
        rw [M.bind_apply, lift_ok (size_read (mrep_vec hi))]
        simp only
        rw [M.bind_apply, lift_ok (size_read (mrep_vec hj))]
        simp only [rep_size, gt_iff_lt]
        split <;> rfl
      by_cases hlt : xs.length < ys.length
      · rw [if_pos hlt] at hx
        obtain ⟨st', h6, h7⟩ := swapKey_fault E T (st := mrep y g) (k := k) hne (mrep_vec hi) (mrep_vec hj) hl' hl (by omega) (by omega)
        rw [h6] at hx
        rw [if_pos hlt]
        cases e : swapTorn E T k xs ys with
        | some p =>
          obtain ⟨xs', ys'⟩ := p
          rw [e] at h7
          obtain ⟨rfl, h8, h9⟩ := h7
          simp only [Option.bind_some]
          refine ⟨[], rfl, good_put (good_put hy h8 hcap) h9 hcap, ?_⟩
          simp only [vcall, vexec, M.bind_apply, hx, sealed, Bool.false_eq_true, if_false, mrep_put, disarm_mrep, List.nil_append]
        | none =>
          rw [e] at h7
          obtain ⟨v, q, h8, h9, h10⟩ := h7
          simp only [Option.bind_none]
          refine Or.inr ⟨j, disarm st', ?_, destruct_dead h8 h9 h10⟩
          simp only [vcall, vexec, M.bind_apply, hx, sealed, Bool.false_eq_true, if_false]
      · rw [if_neg hlt] at hx
        obtain ⟨st', h6, h7⟩ := swapKey_fault E T (st := mrep y g) (k := k) hne.symm (mrep_vec hj) (mrep_vec hi) hl hl' (by omega) (by omega)
        rw [h6] at hx
        rw [if_neg hlt]
        cases e : swapTorn E T k ys xs with
        | some p =>
          obtain ⟨ys', xs'⟩ := p
          rw [e] at h7
          obtain ⟨rfl, h8, h9⟩ := h7
          simp only [Option.bind_some]
          refine ⟨[], rfl, good_put (good_put hy h9 hcap) h8 hcap, ?_⟩
          rw [put_comm _ _ _ hne.symm] at hx
          simp only [vcall, vexec, M.bind_apply, hx, sealed, Bool.false_eq_true, if_false, mrep_put, disarm_mrep, List.nil_append]
        | none =>
          rw [e] at h7
          obtain ⟨v, q, h8, h9, h10⟩ := h7
          simp only [Option.bind_none]
          refine Or.inr ⟨i, disarm st', ?_, destruct_dead h8 h9 h10⟩
          simp only [vcall, vexec, M.bind_apply, hx, sealed, Bool.false_eq_true, if_false]
    | call i op =>
      simp only [mstep, Option.bind_eq_bind, Option.bind_eq_some_iff] at h0
      obtain ⟨⟨cap, xs⟩, hi, ⟨r', xs'⟩, hst, h0'⟩ := h0
      obtain ⟨hl, hcap⟩ := hy i cap xs hi
      have hm : cap < sizeMod := by simp only [sizeMod]; omega
      have hv : ((mrep y g).put i (some ((rep cap xs).tk c))).vec i = some ((rep cap xs).tk c) := put_vec_self _ _ _
      have hs' := hs cap xs hi
      obtain ⟨q0, h0⟩ := Option.isSome_iff_exists.mp h
      simp only [moves, hi] at h4
      -- insertions
      have hins : ∀ (pos n : Nat) (f : Nat → M (MV α) (Reply α)), 0 < n → xs.length + n ≤ cap → k < xs.length - pos →
          vexec E T c (.call i op) = (do lift (M.modify (arm i c)); let p ← growAtT E T i pos n; f p) →
          (∀ r, vstep E T nx ⟨.call i op, c, some k⟩ y = r → r =
            if k = 0 then some (.exc .element, [], y.put i (some (cap, tornLast T xs))) else none) →
          VRefined E T nx ⟨.call i op, c, some k⟩ y g := by
        intro pos n f hn hc hk hx hsp
        obtain ⟨v, h6, h7⟩ := growAtT_fault E T hv hn hc hm hk
        rw [put_put] at h6
        have h8 : vexec E T c (.call i op) ⟨mrep y g, some k⟩ = .throw .element ⟨(mrep y g).put i (some v), none⟩ := by
          simp only [hx, M.bind_apply]
          rw [lift_ok (M.modify_apply _ _)]
          simp only [arm_mrep hi, h6]
        rw [VRefined, hsp _ rfl]
        by_cases e0 : k = 0
        · rw [if_pos e0] at h7 ⊢
          refine ⟨[], rfl, good_put hy (by rw [length_tornLast]; exact hl) hcap, ?_⟩
          simp only [vcall, h8, sealed, Bool.false_eq_true, if_false, h7, disarm_put, List.nil_append]
        · rw [if_neg e0] at h7 ⊢
          obtain ⟨h9, q, h10, h11⟩ := h7
          refine Or.inr ⟨i, disarm ((mrep y g).put i (some v)), ?_, destruct_dead (put_vec_self _ _ _) (by omega) h11⟩
          simp only [vcall, h8, sealed, Bool.false_eq_true, if_false]
      -- removals
      have hrem : ∀ (pos n : Nat) (f : Nat → M (MV α) (Reply α)), 0 < n → k < xs.length - (pos + n) →
          (vexec E T c (.call i op) = do lift (M.modify (arm i c)); let p ← shrinkAtT E T i pos n; f p) →
          vstep E T nx ⟨.call i op, c, some k⟩ y = none →
          VRefined E T nx ⟨.call i op, c, some k⟩ y g := by
        intro pos n f hn hk hx hsp
        obtain ⟨v, h6, h9, q, h10, h11⟩ := shrinkAtT_fault E T hv hn hl hk
        rw [put_put] at h6
        have h8 : vexec E T c (.call i op) ⟨mrep y g, some k⟩ = .throw .element ⟨(mrep y g).put i (some v), none⟩ := by
          simp only [hx, M.bind_apply]
          rw [lift_ok (M.modify_apply _ _)]
          simp only [arm_mrep hi, h6]
        rw [VRefined, hsp]
        refine Or.inr ⟨i, disarm ((mrep y g).put i (some v)), ?_, destruct_dead (put_vec_self _ _ _) (by omega) h11⟩
        simp only [vcall, h8, sealed, Bool.false_eq_true, if_false]
      cases op with
      | insert pos v =>
        simp only [vmoves] at h4
        split at h4
        · refine hins pos 1 (fun p => (do lift (at' i (do let a ← readArg v; emplaceAt p a)); pure p) >>= fun p => pure (.at p))
            (by omega) (by omega) h4 ?_ ?_
          · simp only [vexec, insertT]
            funext s
            simp only [M.bind_apply]
            cases lift (M.modify (arm i c)) s with
            | ok a s => simp only; cases growAtT E T i pos 1 s <;> rfl
            | throw e s => rfl
            | ub => rfl
          · rintro r rfl
            simp only [vstep, h0, h5, hi, Option.bind_eq_bind, Option.bind_some]
        · omega
      | insertN pos n v =>
        simp only [vmoves] at h4
        split at h4
        · rename_i hh
          refine hins pos n (fun p => (do lift (at' i (fillLoop v p n)); pure p) >>= fun p => pure (.at p))
            (by omega) hh.2 h4 ?_ ?_
          · simp only [vexec, insertNT]
            funext s
            simp only [M.bind_apply]
            cases lift (M.modify (arm i c)) s with
            | ok a s => simp only; cases growAtT E T i pos n s <;> rfl
            | throw e s => rfl
            | ub => rfl
          · rintro r rfl
            simp only [vstep, h0, h5, hi, Option.bind_eq_bind, Option.bind_some]
        · omega
      | insertRange pos zs =>
        simp only [vmoves] at h4
        split at h4
        · rename_i hh
          refine hins pos zs.length (fun p => (do lift (at' i (copyLoop p zs)); pure p) >>= fun p => pure (.at p))
            (List.length_pos_iff.mpr hh.1) hh.2 h4 ?_ ?_
          · simp only [vexec, insertRangeT]
            funext s
            simp only [M.bind_apply]
            cases lift (M.modify (arm i c)) s with
            | ok a s => simp only; cases growAtT E T i pos zs.length s <;> rfl
            | throw e s => rfl
            | ub => rfl
          · rintro r rfl
            simp only [vstep, h0, h5, hi, Option.bind_eq_bind, Option.bind_some]
        · omega
      | erase pos =>
        simp only [vmoves] at h4
        refine hrem pos 1 (fun p => pure (.at p)) (by omega) h4 rfl ?_
        simp only [vstep, h0, h5, hi, Option.bind_eq_bind, Option.bind_some]
      | eraseRange f l =>
        simp only [vmoves] at h4
        have hp : f ≤ l ∧ l ≤ xs.length := by
          simp only [step] at hst
          split at hst
          · assumption
          · simp at hst
        have hfl : f < l := by
          rcases hs' with h | h
          · exact h
          · omega
        refine hrem f (l - f) (fun p => pure (.at p)) (by omega) (by omega) ?_ ?_
        · simp only [vexec, eraseRangeT, if_pos hp.1]
        · simp only [vstep, h0, h5, hi, Option.bind_eq_bind, Option.bind_some]
      | _ => simp [vmoves] at h4

theorem vrun_mrep (E : Elem α) (T : Torn α) (nx : Bool) : ∀ (ts : List (VOp α)) {y y' : Sys α} {g : List (Buf α)}
    {rs : List (Reply α)} {ls : List α},
    Good y → VSafeRun E T nx ts y → Spec.vrun E T nx ts y = some (rs, ls, y') →
    ∃ g', dead g' = ls ∧ Good y' ∧ vrun E T nx ts (mrep y g) = some (rs, mrep y' (g' ++ g)) := by
  intro ts
  induction ts with
  | nil =>
    intro y y' g rs ls hy _ h
    simp only [Spec.vrun, Option.some.injEq, Prod.mk.injEq] at h
    obtain ⟨rfl, rfl, rfl⟩ := h
    exact ⟨[], rfl, hy, rfl⟩
  | cons t ts ih =>
    intro y y' g rs ls hy hs h
    simp only [Spec.vrun, Option.bind_eq_bind, Option.bind_eq_some_iff] at h
    obtain ⟨⟨r, l, y1⟩, h1, ⟨rs1, ls1, y2⟩, h2, h3⟩ := h
    simp only [Option.some.injEq, Prod.mk.injEq] at h3
    obtain ⟨rfl, rfl, rfl⟩ := h3
    simp only [VSafeRun, h1] at hs
    have hpre : (mstep E t.op y).isSome := by
      cases h : mstep E t.op y with
      | none => simp [vstep, h] at h1
      | some p => rfl
    have hr := vcall_mrep (g := g) E T nx hy hs.1 hpre
    simp only [VRefined, h1] at hr
    obtain ⟨g1, e1, hy1, e2⟩ := hr
    obtain ⟨g2, e3, hy2, e4⟩ := ih (g := g1 ++ g) hy1 hs.2 h2
    refine ⟨g2 ++ g1, by rw [dead_append, e1, e3], hy2, ?_⟩
    simp only [vrun, e2, Option.bind_eq_bind, Option.bind_some, e4, List.append_assoc]

end Itlib.StaticVector
