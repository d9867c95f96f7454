import Verif.SmallVector.Ticks
import Verif.SmallVector.ThrowSpec
import Verif.SmallVector.Exceptions

/-! # Calls with throw points (proof engineering) -/
namespace Itlib.SmallVector
open Itlib Spec
open Itlib.StaticVector (gap gapFill gap_eq gapFill_full)
variable {α β : Type}
variable {C : Ctx α} {h h' : Home} {k k' : Nat} {b : Buf α} {n nx : Nat} {g : List (Buf α)} {xs : List α}

theorem er_stB (hT : NoThrow C) : (stB C h k b n nx g).er = stB C h k b n nx g := by
  simp only [St.er, St.tk, stB, hT.1, hT.2]

theorem er_st (hT : NoThrow C) : (st C h k xs nx g).er = st C h k xs nx g := er_stB hT

theorem needs_stB {d : Nat} : Needs' C.P d (stB C h k b n nx g) ↔ h.cap C.P.N < d := by
  cases h <;> simp [Needs', Home.cap]

theorem growAt_frame (E : Elem α) (hT : NoThrow C) {pos : Int} {num : Nat} :
    Frame (growAt C.P E pos num) (st C h k xs nx g) 0
      (if (0 ≤ pos ∧ pos ≤ xs.length) ∧ h.cap C.P.N < xs.length + num then 1 else 0) := by
  refine Frame.bind0 (size_frame _) fun sz t hsz ht => ?_
  rw [er_st hT, size_st, Res.ok.injEq] at hsz
  obtain ⟨rfl, rfl⟩ := hsz
  by_cases hp : 0 ≤ pos ∧ pos ≤ (xs.length : Int)
  · rw [if_neg (show ¬ (pos < 0 ∨ pos > (xs.length : Int)) by omega)]
    have h1 := chooseData_frame (st C h k xs nx g) C.P (xs.length + num)
    have e1 : (if Needs' C.P (xs.length + num) (st C h k xs nx g) then 1 else 0) =
        (if (0 ≤ pos ∧ pos ≤ (xs.length : Int)) ∧ h.cap C.P.N < xs.length + num then 1 else 0) := by
      simp only [st, needs_stB, hp, and_self, true_and]
    rw [e1] at h1
    refine Frame.bind h1 (nc' := 0) (na' := 0) fun lc t _ ht => ?_
    obtain ⟨l, c⟩ := lc
    refine Frame.get (fun _ _ => rfl) (Frame.ite (fun _ => ?_) fun _ => ?_)
    · exact Frame.bind0 (setEnd_frame ..) fun _ t _ _ => Frame.bind0 (onLoc_frame ..) fun _ t _ _ => Frame.pure ..
    · exact Frame.bind0 (onLoc2_frame ..) fun _ t _ _ => Frame.bind0 (onLoc2_frame ..) fun _ t _ _ =>
        Frame.bind0 (onLoc_frame ..) fun _ t _ _ => Frame.bind0 (freeDyn_frame ..) fun _ t _ _ =>
        Frame.bind0 (setPtrs_frame ..) fun _ t _ _ => Frame.pure ..
  · rw [if_pos (show pos < 0 ∨ pos > (xs.length : Int) by omega), if_neg (by simp [hp])]
    exact Frame.raise ..

theorem clear_frame (P : Params) (s : St α) : Frame (clear P) s 0 0 :=
  Frame.bind0 (destroyAll_frame s) fun _ t _ _ => Frame.get (fun _ _ => rfl) (Frame.ite
    (fun _ => Frame.bind0 (deallocate_frame ..) fun _ t _ _ => setPtrs_frame ..) fun _ => setEnd_frame ..)

theorem shrinkAt_frame (E : Elem α) (hT : NoThrow C) (hl : xs.length ≤ h.cap C.P.N) {pos : Int} {num : Nat} :
    Frame (shrinkAt C.P E pos num) (st C h k xs nx g) 0 0 := by
  refine Frame.bind0 (size_frame _) fun sz t hsz ht => ?_
  rw [er_st hT, size_st, Res.ok.injEq] at hsz
  obtain ⟨rfl, rfl⟩ := hsz
  refine Frame.ite (fun _ => Frame.raise ..) fun hp => Frame.ite (fun _ => ?_) fun _ => ?_
  · exact Frame.bind0 (clear_frame ..) fun _ t _ _ => Frame.get (fun _ _ => rfl) (Frame.pure ..)
  · have h1 := chooseData_frame (st C h k xs nx g) C.P (xs.length - num)
    rw [if_neg (by simp only [st, needs_stB]; omega)] at h1
    refine Frame.bind0 h1 fun lc t _ ht => ?_
    obtain ⟨l, c⟩ := lc
    refine Frame.get (fun _ _ => rfl) (Frame.ite (fun _ => ?_) fun _ => Frame.ite (fun _ => Frame.undef ..) fun _ => ?_)
    · exact Frame.bind0 (onLoc_frame ..) fun _ t _ _ => Frame.bind0 (onLoc_frame ..) fun _ t _ _ =>
        Frame.bind0 (setEnd_frame ..) fun _ t _ _ => Frame.pure ..
    · exact Frame.bind0 (onLoc2_frame ..) fun _ t _ _ => Frame.bind0 (onLoc_frame ..) fun _ t _ _ =>
        Frame.bind0 (onLoc2_frame ..) fun _ t _ _ => Frame.bind0 (deallocate_frame ..) fun _ t _ _ =>
        Frame.bind0 (setPtrs_frame ..) fun _ t _ _ => Frame.pure ..

theorem reserve_frame (E : Elem α) {d : Nat} :
    Frame (reserve C.P E d) (st C h k xs nx g) 0 (if h.cap C.P.N < d then 1 else 0) := by
  refine Frame.get (fun _ _ => rfl) ?_
  have e0 : (st C h k xs nx g).er.v.cap = h.cap C.P.N := rfl
  rw [e0]
  by_cases hd : d ≤ h.cap C.P.N
  · rw [if_pos hd, if_neg (by omega)]
    exact Frame.pure ..
  · rw [if_neg hd]
    have h1 := chooseData_frame (st C h k xs nx g) C.P d
    have e1 : (if Needs' C.P d (st C h k xs nx g) then 1 else 0) = (if h.cap C.P.N < d then 1 else 0) := by
      simp only [st, needs_stB]
    rw [e1] at h1
    refine Frame.bind h1 (nc' := 0) (na' := 0) fun lc t _ ht => ?_
    obtain ⟨l, c⟩ := lc
    refine Frame.ite (fun _ => Frame.undef ..) fun _ => ?_
    exact Frame.bind0 (size_frame ..) fun _ t _ _ => Frame.bind0 (onLoc2_frame ..) fun _ t _ _ =>
      Frame.bind0 (onLoc_frame ..) fun _ t _ _ => Frame.bind0 (freeDyn_frame ..) fun _ t _ _ => setPtrs_frame ..

theorem resizeV_frame (E : Elem α) {d : Nat} {v : Arg α} (hG : Good C h k xs nx g) (hT : NoThrow C) :
    Frame (resizeV C.P E d v) (st C h k xs nx g) (d - xs.length) (if h.cap C.P.N < d then 1 else 0) := by
  refine Frame.bind0 (bindRef_frame ..) fun r t hr _ => ?_
  rw [er_st hT, bindRef_st, Res.ok.injEq] at hr
  obtain ⟨rfl, rfl⟩ := hr
  have h2 : ∀ b t, reserve C.P E d (st C h k xs nx g).er = .ok b t → t.er = t → Frame (do
      let sz ← size
      popLoop (sz - d)
      pushLoop (refOf C h k v) (d - sz)) t (d - xs.length) 0 := by
    intro b t hr _
    obtain ⟨k', nx', g', e1, e2, _⟩ := reserve_st E (d := d) hG hT.2
    rw [er_st hT, e1, Res.ok.injEq] at hr
    obtain ⟨-, rfl⟩ := hr
    refine Frame.bind0 (size_frame _) fun sz t hsz ht => ?_
    rw [er_st hT, size_st, Res.ok.injEq] at hsz
    obtain ⟨rfl, rfl⟩ := hsz
    exact Frame.bind0 (popLoop_frame ..) fun _ t _ _ => pushLoop_frame ..
  have := Frame.bind (reserve_frame E (C := C) (h := h) (k := k) (xs := xs) (nx := nx) (g := g) (d := d)) h2
  simpa using this

theorem adopt_frame (l : Loc) (c : Nat) (s : St α) : Frame (adopt l c) s 0 0 := by
  refine Frame.get (fun _ _ => rfl) ?_
  have h1 : ∀ t : St α, Frame (M.modify fun s : St α => { s with v := { s.v with bgn := l, cap := c } }) t 0 0 :=
    fun t => Frame.modify fun _ _ => rfl
  exact Frame.ite (fun _ => Frame.bind0 (deallocate_frame ..) fun _ t _ _ => h1 t) fun _ => h1 s

theorem assignFill_frame {d : Nat} {r : Ref α} :
    Frame (assignFill C.P d r) (stB C h k b n nx g) d (if h.cap C.P.N < d then 1 else 0) := by
  have h1 := chooseData_frame (stB C h k b n nx g) C.P d
  have e1 : (if Needs' C.P d (stB C h k b n nx g) then 1 else 0) = (if h.cap C.P.N < d then 1 else 0) := by
    simp only [needs_stB]
  rw [e1] at h1
  have := Frame.bind h1 (nc' := d) (na' := 0) (g := fun (l, c) => do
    setEnd l 0
    fillEnd r d
    adopt l c) fun lc t _ ht => Frame.bind0 (setEnd_frame ..) fun _ t _ _ => by
      have := Frame.bind (fillEnd_frame r d t) (fun _ t _ _ => adopt_frame lc.1 lc.2 t)
      simpa using this
  rw [Nat.zero_add, Nat.add_zero] at this
  exact this

theorem assignCopy_frame {ys : List α} :
    Frame (assignCopy C.P ys) (stB C h k b n nx g) ys.length (if h.cap C.P.N < ys.length then 1 else 0) := by
  have h1 := chooseData_frame (stB C h k b n nx g) C.P ys.length
  have e1 : (if Needs' C.P ys.length (stB C h k b n nx g) then 1 else 0) = (if h.cap C.P.N < ys.length then 1 else 0) := by
    simp only [needs_stB]
  rw [e1] at h1
  have := Frame.bind h1 (nc' := ys.length) (na' := 0) (g := fun (l, c) => do
    setEnd l 0
    copyEnd ys
    adopt l c) fun lc t _ ht => Frame.bind0 (setEnd_frame ..) fun _ t _ _ => by
      have := Frame.bind (copyEnd_frame ys t) (fun _ t _ _ => adopt_frame lc.1 lc.2 t)
      simpa using this
  rw [Nat.zero_add, Nat.add_zero] at this
  exact this

theorem assignN_frame {d : Nat} {v : Arg α} (hT : NoThrow C) (hl : xs.length ≤ h.cap C.P.N) :
    Frame (assignN C.P d v) (st C h k xs nx g) d (if h.cap C.P.N < d then 1 else 0) := by
  refine Frame.bind0 (bindRef_frame ..) fun r t hr _ => ?_
  rw [er_st hT, bindRef_st, Res.ok.injEq] at hr
  obtain ⟨rfl, rfl⟩ := hr
  refine Frame.bind0 (destroyAll_frame _) fun _ t hr _ => ?_
  rw [er_st hT, destroyAll_st hl, Res.ok.injEq] at hr
  obtain ⟨-, rfl⟩ := hr
  exact assignFill_frame

theorem assignRange_frame {ys : List α} (hT : NoThrow C) (hl : xs.length ≤ h.cap C.P.N) :
    Frame (assignRange C.P ys) (st C h k xs nx g) ys.length (if h.cap C.P.N < ys.length then 1 else 0) := by
  refine Frame.bind0 (destroyAll_frame _) fun _ t hr _ => ?_
  rw [er_st hT, destroyAll_st hl, Res.ok.injEq] at hr
  obtain ⟨-, rfl⟩ := hr
  exact assignCopy_frame

theorem shrinkToFit_frame (E : Elem α) (hT : NoThrow C) (hs : h = .stat ∨ xs.length ≠ C.P.N) :
    Frame (shrinkToFit C.P E) (st C h k xs nx g) 0 (if C.P.N < xs.length ∧ h ≠ .stat ∧ h ≠ .dyn xs.length then 1 else 0) := by
  refine Frame.bind0 (size_frame _) fun sz t hsz ht => ?_
  rw [er_st hT, size_st, Res.ok.injEq] at hsz
  obtain ⟨rfl, rfl⟩ := hsz
  refine Frame.get (fun _ _ => rfl) ?_
  have e1 : (st C h k xs nx g).er.v.cap = h.cap C.P.N := rfl
  have e2 : (st C h k xs nx g).er.v.isStatic = decide (h = .stat) := by
    rw [er_st hT]; exact isStatic_stB ..
  rw [e1, e2]
  cases h with
  | stat =>
    simp only [decide_true, if_true, ne_eq, not_true_eq_false, false_and, and_false, if_false]
    exact Frame.ite (fun _ => Frame.pure ..) fun _ => Frame.pure ..
  | dyn c =>
    simp only [Home.cap, reduceCtorEq, decide_false, Bool.false_eq_true, if_false, not_false_eq_true, ne_eq, true_and,
      Home.dyn.injEq, false_or] at hs ⊢
    by_cases e3 : xs.length = c
    · rw [if_pos e3, if_neg (by omega)]
      exact Frame.pure ..
    · rw [if_neg e3]
      by_cases e4 : xs.length < C.P.N
      · rw [if_pos e4, if_neg (by omega)]
        exact Frame.bind0 (onLoc2_frame ..) fun _ t _ _ => Frame.bind0 (setPtrs_frame ..) fun _ t _ _ =>
          Frame.bind0 (deallocate_frame ..) fun _ t _ _ => Frame.pure ..
      · rw [if_neg e4, if_pos (by omega)]
        exact Frame.bind (allocate_frame ..) (nc' := 0) (na' := 0) fun _ t _ _ =>
          Frame.bind0 (onLoc2_frame ..) fun _ t _ _ => Frame.bind0 (setPtrs_frame ..) fun _ t _ _ =>
          Frame.bind0 (deallocate_frame ..) fun _ t _ _ => Frame.pure ..

theorem revertToStatic_frame (E : Elem α) (hT : NoThrow C) (hs : h = .stat ∨ xs.length ≠ C.P.N) :
    Frame (revertToStatic C.P E) (st C h k xs nx g) 0 0 := by
  refine Frame.bind0 (size_frame _) fun sz t hsz ht => ?_
  rw [er_st hT, size_st, Res.ok.injEq] at hsz
  obtain ⟨rfl, rfl⟩ := hsz
  refine Frame.get (fun _ _ => rfl) (Frame.ite (fun _ => Frame.pure ..) fun _ => Frame.ite (fun _ => Frame.pure ..) fun hn => ?_)
  have := shrinkToFit_frame E hT hs (k := k) (nx := nx) (g := g)
  rw [if_neg (by omega)] at this
  exact Frame.bind0 this fun _ t _ _ => Frame.pure ..

theorem at_frame (i : Nat) (s : St α) : Frame (at_ i) s 0 0 :=
  Frame.bind0 (size_frame _) fun _ t _ _ => Frame.ite (fun _ => Frame.get (fun _ _ => rfl) (loadRef_frame ..)) fun _ => Frame.undef ..

theorem insert_frame (E : Elem α) (hT : NoThrow C) {pos : Int} {v : Arg α} :
    Frame (insert C.P E pos v) (st C h k xs nx g) (if 0 ≤ pos ∧ pos ≤ (xs.length : Int) then 1 else 0)
      (if (0 ≤ pos ∧ pos ≤ (xs.length : Int)) ∧ h.cap C.P.N < xs.length + 1 then 1 else 0) := by
  refine Frame.bind0 (bindRef_frame ..) fun r t hr _ => ?_
  rw [er_st hT, bindRef_st, Res.ok.injEq] at hr
  obtain ⟨rfl, rfl⟩ := hr
  by_cases hp : 0 ≤ pos ∧ pos ≤ (xs.length : Int)
  · have := Frame.bind (growAt_frame (xs := xs) (k := k) (h := h) (nx := nx) (g := g) E hT (pos := pos) (num := 1)) (nc' := 1) (na' := 0)
      (g := fun (l, p) => do
        let a ← loadRef (refOf C h k v)
        emplaceAt l p a
        pure p) fun lp t _ _ => Frame.bind0 (loadRef_frame ..) fun a t _ _ =>
          Frame.bind (emplaceAt_frame ..) (nc' := 0) (na' := 0) fun _ t _ _ => Frame.pure ..
    rw [Nat.zero_add, Nat.add_zero] at this
    rw [if_pos hp]
    exact this
  · rw [if_neg hp, if_neg (by simp [hp])]
    refine ⟨fun c a _ _ => ?_⟩
    have h1 : ∀ c a, growAt C.P E pos 1 ((st C h k xs nx g).tk c a) = .throw .outOfRange ((st C h k xs nx g).tk c a) :=
      fun c a => growAt_reject (C := { C with ct := c, at' := a }) C.P E hp
    simp only [M.bind_apply, St.er, h1]
    exact ⟨c, a, rfl⟩

theorem pushBack_frame (E : Elem α) (hT : NoThrow C) {v : Arg α} :
    Frame (pushBack C.P E v) (st C h k xs nx g) 1 (if h.cap C.P.N < xs.length + 1 then 1 else 0) := by
  refine Frame.bind0 (bindRef_frame ..) fun r t hr _ => ?_
  rw [er_st hT, bindRef_st, Res.ok.injEq] at hr
  obtain ⟨rfl, rfl⟩ := hr
  refine Frame.bind0 (size_frame _) fun sz t hsz ht => ?_
  rw [er_st hT, size_st, Res.ok.injEq] at hsz
  obtain ⟨rfl, rfl⟩ := hsz
  have := Frame.bind (growAt_frame (xs := xs) (k := k) (h := h) (nx := nx) (g := g) E hT (pos := xs.length) (num := 1)) (nc' := 1) (na' := 0)
      (g := fun (l, p) => do
        let a ← loadRef (refOf C h k v)
        emplaceAt l p a) fun lp t _ _ => Frame.bind0 (loadRef_frame ..) fun a t _ _ => emplaceAt_frame ..
  rw [Nat.zero_add, Nat.add_zero] at this
  simpa using this

theorem emplaceBack_frame (E : Elem α) (hT : NoThrow C) {v : Arg α} :
    Frame (emplaceBack C.P E v) (st C h k xs nx g) 1 (if h.cap C.P.N < xs.length + 1 then 1 else 0) := by
  refine Frame.bind0 (bindRef_frame ..) fun r t hr _ => ?_
  rw [er_st hT, bindRef_st, Res.ok.injEq] at hr
  obtain ⟨rfl, rfl⟩ := hr
  refine Frame.bind0 (size_frame _) fun sz t hsz ht => ?_
  rw [er_st hT, size_st, Res.ok.injEq] at hsz
  obtain ⟨rfl, rfl⟩ := hsz
  have := Frame.bind (growAt_frame (xs := xs) (k := k) (h := h) (nx := nx) (g := g) E hT (pos := xs.length) (num := 1)) (nc' := 1) (na' := 0)
      (g := fun (l, p) => do
        let a ← loadRef (refOf C h k v)
        emplaceAt l p a
        pure p) fun lp t _ _ => Frame.bind0 (loadRef_frame ..) fun a t _ _ =>
          Frame.bind (emplaceAt_frame ..) (nc' := 0) (na' := 0) fun _ t _ _ => Frame.pure ..
  rw [Nat.zero_add, Nat.add_zero] at this
  simpa using this

theorem insertN_frame (E : Elem α) (hT : NoThrow C) {pos : Int} {d : Nat} {v : Arg α} :
    Frame (insertN C.P E pos d v) (st C h k xs nx g) (if 0 ≤ pos ∧ pos ≤ (xs.length : Int) then d else 0)
      (if (0 ≤ pos ∧ pos ≤ (xs.length : Int)) ∧ h.cap C.P.N < xs.length + d then 1 else 0) := by
  refine Frame.bind0 (bindRef_frame ..) fun r t hr _ => ?_
  rw [er_st hT, bindRef_st, Res.ok.injEq] at hr
  obtain ⟨rfl, rfl⟩ := hr
  by_cases hp : 0 ≤ pos ∧ pos ≤ (xs.length : Int)
  · have := Frame.bind (growAt_frame (xs := xs) (k := k) (h := h) (nx := nx) (g := g) E hT (pos := pos) (num := d)) (nc' := d) (na' := 0)
      (g := fun (l, p) => do
        fillAt (refOf C h k v) l p d
        pure p) fun lp t _ _ => Frame.bind (fillAt_frame ..) (nc' := 0) (na' := 0) fun _ t _ _ => Frame.pure ..
    rw [Nat.zero_add, Nat.add_zero] at this
    rw [if_pos hp]
    exact this
  · rw [if_neg hp, if_neg (by simp [hp])]
    refine ⟨fun c a _ _ => ?_⟩
    have h1 : ∀ c a, growAt C.P E pos d ((st C h k xs nx g).tk c a) = .throw .outOfRange ((st C h k xs nx g).tk c a) :=
      fun c a => growAt_reject (C := { C with ct := c, at' := a }) C.P E hp
    simp only [M.bind_apply, St.er, h1]
    exact ⟨c, a, rfl⟩

theorem insertRange_frame (E : Elem α) (hT : NoThrow C) {pos : Int} {ys : List α} :
    Frame (insertRange C.P E pos ys) (st C h k xs nx g) (if 0 ≤ pos ∧ pos ≤ (xs.length : Int) then ys.length else 0)
      (if (0 ≤ pos ∧ pos ≤ (xs.length : Int)) ∧ h.cap C.P.N < xs.length + ys.length then 1 else 0) := by
  by_cases hp : 0 ≤ pos ∧ pos ≤ (xs.length : Int)
  · have := Frame.bind (growAt_frame (xs := xs) (k := k) (h := h) (nx := nx) (g := g) E hT (pos := pos) (num := ys.length))
      (nc' := ys.length) (na' := 0)
      (g := fun (l, p) => do
        copyAt l p ys
        pure p) fun lp t _ _ => Frame.bind (copyAt_frame ..) (nc' := 0) (na' := 0) fun _ t _ _ => Frame.pure ..
    rw [Nat.zero_add, Nat.add_zero] at this
    rw [if_pos hp]
    exact this
  · rw [if_neg hp, if_neg (by simp [hp])]
    refine ⟨fun c a _ _ => ?_⟩
    have h1 : ∀ c a, growAt C.P E pos ys.length ((st C h k xs nx g).tk c a) = .throw .outOfRange ((st C h k xs nx g).tk c a) :=
      fun c a => growAt_reject (C := { C with ct := c, at' := a }) C.P E hp
    simp only [insertRange, M.bind_apply, St.er, h1]
    exact ⟨c, a, rfl⟩

theorem Frame.map {γ : Type} {f : M (St α) β} {r : β → γ} {s : St α} {nc na : Nat} (hf : Frame f s nc na) :
    Frame (f >>= fun b => Pure.pure (r b)) s nc na := by
  simpa using Frame.bind hf (nc' := 0) (na' := 0) (fun _ t _ _ => Frame.pure ..)

theorem exec_frame (E : Elem α) {op : Op α} (hG : Good C h k xs nx g) (hT : NoThrow C) (hs : Safe C.P.N C.P.R op h xs) :
    Frame (exec C.P E op) (st C h k xs nx g) (made op xs) (if allocs C.P.N op h xs = true then 1 else 0) := by
  cases op with
  | pushBack v => simp only [allocs, decide_eq_true_eq]; exact (pushBack_frame E hT).map
  | emplaceBack v => simp only [allocs, decide_eq_true_eq]; exact (emplaceBack_frame E hT).map
  | popBack =>
    refine Frame.map (r := fun _ => Reply.done) (f := popBack C.P E) (nc := 0) (na := 0) ?_
    refine Frame.bind0 (size_frame _) fun sz t hsz ht => ?_
    rw [er_st hT, size_st, Res.ok.injEq] at hsz
    obtain ⟨rfl, rfl⟩ := hsz
    exact (shrinkAt_frame E hT hG.len).map
  | insert pos v => simp only [allocs, decide_eq_true_eq]; exact (insert_frame E hT).map
  | insertN pos d v => simp only [allocs, decide_eq_true_eq]; exact (insertN_frame E hT).map
  | insertRange pos ys => simp only [allocs, decide_eq_true_eq]; exact (insertRange_frame E hT).map
  | erase pos => exact (shrinkAt_frame E hT hG.len).map
  | eraseRange f l =>
    refine Frame.map (f := eraseRange C.P E f l) ?_
    exact Frame.ite (fun _ => Frame.raise ..) fun _ => shrinkAt_frame E hT hG.len
  | clear => exact (clear_frame ..).map
  | resize d => simp only [allocs, decide_eq_true_eq]; exact (resizeV_frame E hG hT).map
  | resizeV d v => simp only [allocs, decide_eq_true_eq]; exact (resizeV_frame E hG hT).map
  | assignN d v => simp only [allocs, decide_eq_true_eq]; exact (assignN_frame hT hG.len).map
  | assignRange ys => simp only [allocs, decide_eq_true_eq]; exact (assignRange_frame hT hG.len).map
  | reserve d => simp only [allocs, decide_eq_true_eq]; exact (reserve_frame E).map
  | shrinkToFit => simp only [allocs, decide_eq_true_eq]; exact (shrinkToFit_frame E hT hs).map
  | revertToStatic => exact (revertToStatic_frame E hT hs).map
  | get i => exact (at_frame ..).map
  | getBack =>
    exact Frame.map (f := back) (Frame.get (fun _ _ => rfl) (Frame.ite (fun _ => Frame.undef ..) fun _ => loadRef_frame ..))
  | front => exact Frame.map (f := front) (at_frame ..)
  | set i v =>
    refine Frame.map (f := setAt i v) ?_
    exact Frame.bind0 (bindRef_frame ..) fun _ t _ _ => Frame.bind0 (loadRef_frame ..) fun _ t _ _ =>
      Frame.bind0 (at_frame ..) fun _ t _ _ => Frame.get (fun _ _ => rfl) (onLoc_frame ..)
  | moveElem i j =>
    refine Frame.map (f := moveElem E i j) ?_
    exact Frame.bind0 (at_frame ..) fun _ t _ _ => Frame.bind0 (at_frame ..) fun _ t _ _ =>
      Frame.ite (fun _ => Frame.undef ..) fun _ => Frame.get (fun _ _ => rfl) (Frame.bind0 (onLoc_frame ..) fun _ t _ _ => onLoc_frame ..)
  | isEmpty => exact Frame.map (f := isEmpty) (Frame.get (fun _ _ => rfl) (Frame.pure ..))
  | forward =>
    exact Frame.map (f := forward) (Frame.get (fun _ _ => rfl) (Frame.ite (fun _ => readUp_frame ..) fun _ => Frame.undef ..))
  | backward =>
    exact Frame.map (f := backward) (Frame.get (fun _ _ => rfl) (Frame.ite (fun _ => readDown_frame ..) fun _ => Frame.undef ..))
  | size => exact (size_frame ..).map
  | capacity => exact Frame.get (fun _ _ => rfl) (Frame.pure ..)
  | isStatic => exact Frame.get (fun _ _ => rfl) (Frame.pure ..)

end Itlib.SmallVector
