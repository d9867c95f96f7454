import Verif.SmallVector.StepLemmas

/-! # Throw points (proof engineering): a call with enough of them behaves as one without -/
namespace Itlib.SmallVector
open Itlib Spec
variable {α β γ : Type}

/-- the state with other throw points -/
def St.tk (s : St α) (c a : Option Nat) : St α := { s with ctick := c, atick := a }
/-- the state without throw points -/
abbrev St.er (s : St α) : St α := s.tk none none

@[simp] theorem tk_tk (s : St α) (c a c' a' : Option Nat) : (s.tk c a).tk c' a' = s.tk c' a' := rfl
@[simp] theorem tk_v (s : St α) (c a : Option Nat) : (s.tk c a).v = s.v := rfl
@[simp] theorem tk_ctick (s : St α) (c a : Option Nat) : (s.tk c a).ctick = c := rfl
@[simp] theorem tk_atick (s : St α) (c a : Option Nat) : (s.tk c a).atick = a := rfl

/-- at least `n` more do not throw -/
def Enough : Option Nat → Nat → Prop
  | none, _ => True
  | some k, n => n ≤ k

instance (c : Option Nat) (n : Nat) : Decidable (Enough c n) := by cases c <;> simp only [Enough] <;> infer_instance

/-- the throw point after `n` -/
def spend (c : Option Nat) (n : Nat) : Option Nat := c.map (· - n)

@[simp] theorem spend_zero (c : Option Nat) : spend c 0 = c := by cases c <;> rfl
@[simp] theorem enough_zero (c : Option Nat) : Enough c 0 := by cases c <;> simp [Enough]
theorem enough_add {c : Option Nat} {m n : Nat} (h : Enough c (m + n)) : Enough c m ∧ Enough (spend c m) n := by
  cases c with
  | none => exact ⟨trivial, trivial⟩
  | some k => simp only [Enough, spend, Option.map_some] at *; omega
theorem spend_add (c : Option Nat) (m n : Nat) : spend (spend c m) n = spend c (m + n) := by
  cases c with
  | none => rfl
  | some k => simp only [spend, Option.map_some, Option.some.injEq]; omega

/-- outcome `g` is outcome `f` with the throw points `c`, `a` if it is a return -/
def Same (c a : Option Nat) : Res (St α) β → Res (St α) β → Prop
  | .ok b t, g => g = .ok b (t.tk c a) ∧ t.er = t
  | .throw e t, g => ∃ c' a', g = .throw e (t.tk c' a')
  | .ub, g => g = .ub

/-- `f`, run in `s`, makes `nc` copies and `na` allocations if it returns -/
structure Frame (f : M (St α) β) (s : St α) (nc na : Nat) : Prop where
  run : ∀ c a, Enough c nc → Enough a na → Same (spend c nc) (spend a na) (f s.er) (f (s.tk c a))

theorem Frame.pure (b : β) (s : St α) : Frame (pure b) s 0 0 := by
  refine ⟨fun c a _ _ => ?_⟩
  simp [Same]

theorem Frame.raise (e : Exc) (s : St α) : Frame (M.raise e : M (St α) β) s 0 0 := by
  refine ⟨fun c a _ _ => ?_⟩
  exact ⟨c, a, rfl⟩

theorem Frame.undef (s : St α) : Frame (M.undef : M (St α) β) s 0 0 := by
  refine ⟨fun c a _ _ => ?_⟩
  rfl

theorem Frame.bind {f : M (St α) β} {g : β → M (St α) γ} {s : St α} {nc na nc' na' : Nat} (hf : Frame f s nc na)
    (hg : ∀ b t, f s.er = .ok b t → t.er = t → Frame (g b) t nc' na') : Frame (f >>= g) s (nc + nc') (na + na') := by
  refine ⟨fun c a hc ha => ?_⟩
  have hc := enough_add hc
  have ha := enough_add ha
  have h := hf.run c a hc.1 ha.1
  simp only [M.bind_apply]
  cases e : f s.er with
  | ok b t =>
    rw [e] at h
    obtain ⟨h1, h2⟩ := h
    rw [h1]
    have := (hg b t e h2).run _ _ hc.2 ha.2
    rw [spend_add, spend_add, h2] at this
    exact this
  | throw ex t =>
    rw [e] at h
    obtain ⟨c', a', h1⟩ := h
    rw [h1]
    exact ⟨c', a', rfl⟩
  | ub =>
    rw [e] at h
    have h1 : f (s.tk c a) = .ub := h
    rw [h1]
    rfl

/-- a bind whose first part neither copies nor allocates -/
theorem Frame.bind0 {f : M (St α) β} {g : β → M (St α) γ} {s : St α} {nc na : Nat} (hf : Frame f s 0 0)
    (hg : ∀ b t, f s.er = .ok b t → t.er = t → Frame (g b) t nc na) : Frame (f >>= g) s nc na := by
  simpa using Frame.bind hf hg

/-- a bind whose first part makes one copy -/
theorem Frame.bind1 {f : M (St α) β} {g : β → M (St α) γ} {s : St α} {n : Nat} (hf : Frame f s 1 0)
    (hg : ∀ b t, f s.er = .ok b t → t.er = t → Frame (g b) t n 0) : Frame (f >>= g) s (n + 1) 0 := by
  rw [Nat.add_comm]
  exact Frame.bind hf hg

/-- reading the state; what follows must not look at the throw points -/
theorem Frame.get {g : St α → M (St α) γ} {s : St α} {nc na : Nat} (hc : ∀ c a, g (s.tk c a) = g s.er)
    (hg : Frame (g s.er) s nc na) : Frame (M.get >>= g) s nc na := by
  refine ⟨fun c a h1 h2 => ?_⟩
  simp only [M.bind_apply, M.get_apply, hc c a]
  exact hg.run c a h1 h2

theorem Frame.ite {p : Prop} [Decidable p] {f g : M (St α) β} {s : St α} {nc na : Nat} (hf : p → Frame f s nc na)
    (hg : ¬ p → Frame g s nc na) : Frame (if p then f else g) s nc na := by
  split
  · exact hf ‹_›
  · exact hg ‹_›

theorem Frame.modify {f : St α → St α} {s : St α} (h : ∀ c a, f (s.tk c a) = (f s.er).tk c a) : Frame (M.modify f) s 0 0 := by
  refine ⟨fun c a _ _ => ?_⟩
  simp only [M.modify_apply, Same, spend_zero]
  exact ⟨by rw [h], by rw [h]; rfl⟩

theorem Frame.mem {f : St α → Option (St α)} {s : St α} (h : ∀ c a, f (s.tk c a) = (f s.er).map (·.tk c a)) :
    Frame (M.mem f) s 0 0 := by
  refine ⟨fun c a _ _ => ?_⟩
  simp only [M.mem, h c a, spend_zero]
  cases e : f s.er with
  | none => rfl
  | some t =>
    refine ⟨rfl, ?_⟩
    have h1 := h none none
    rw [show s.tk none none = s.er from rfl, e] at h1
    simpa using h1.symm

theorem Frame.load {f : St α → Option β} {s : St α} (h : ∀ c a, f (s.tk c a) = f s.er) : Frame (M.load f) s 0 0 := by
  refine ⟨fun c a _ _ => ?_⟩
  simp only [M.load, h c a, spend_zero]
  cases e : f s.er with
  | none => rfl
  | some t => exact ⟨rfl, rfl⟩

section prims
variable (s : St α)

theorem buf_tk (l : Loc) (c a : Option Nat) : (s.tk c a).buf l = s.buf l := by cases l <;> rfl
theorem setBuf_tk (l : Loc) (b : Buf α) (c a : Option Nat) : (s.tk c a).setBuf l b = (s.setBuf l b).tk c a := by cases l <;> rfl

theorem size_frame : Frame (α := α) size s 0 0 :=
  Frame.get (fun _ _ => rfl) (Frame.ite (fun _ => Frame.pure ..) fun _ => Frame.undef ..)

theorem onLoc_frame (l : Loc) (f : Buf α → Option (Buf α)) : Frame (onLoc l f) s 0 0 := by
  refine Frame.mem fun c a => ?_
  simp only [buf_tk, setBuf_tk, Option.bind_eq_bind]
  cases s.buf l with
  | none => rfl
  | some b => cases h : f b <;> simp [h]

theorem onLoc2_frame (l l' : Loc) (f : Buf α → Buf α → Option (Buf α × Buf α)) : Frame (onLoc2 l l' f) s 0 0 := by
  refine Frame.mem fun c a => ?_
  by_cases hl : l = l'
  · simp [hl]
  · simp only [hl, if_false, buf_tk, setBuf_tk, Option.bind_eq_bind]
    cases s.buf l with
    | none => rfl
    | some b =>
      cases s.buf l' with
      | none => rfl
      | some b' => cases h : f b b' <;> simp [h]

theorem loadRef_frame (r : Ref α) : Frame (loadRef r) s 0 0 := by
  cases r with
  | val a => exact Frame.pure ..
  | slot l i => exact Frame.load fun c a => by simp only [buf_tk]

theorem bindRef_frame (v : Arg α) : Frame (bindRef v) s 0 0 := by
  cases v with
  | val a => exact Frame.get (fun _ _ => rfl) (Frame.pure ..)
  | self i => exact Frame.get (fun _ _ => rfl) (Frame.pure ..)

theorem emplaceAt_frame (l : Loc) (i : Nat) (x : α) : Frame (emplaceAt l i x) s 1 0 := by
  refine ⟨fun c a hc ha => ?_⟩
  have h := (onLoc_frame s l (·.construct i x)).run (spend c 1) a (enough_zero _) ha
  simp only [spend_zero] at h ⊢
  have e1 : emplaceAt l i x s.er = onLoc l (·.construct i x) s.er := rfl
  have e2 : emplaceAt l i x (s.tk c a) = onLoc l (·.construct i x) (s.tk (spend c 1) a) := by
    cases c with
    | none => rfl
    | some k =>
      cases k with
      | zero => simp [Enough] at hc
      | succ k => rfl
  rw [e1, e2]
  exact h

theorem allocate_frame (n : Nat) : Frame (α := α) (allocate n) s 0 1 := by
  refine ⟨fun c a hc ha => ?_⟩
  cases a with
  | none => exact ⟨by rw [spend_zero]; rfl, rfl⟩
  | some k =>
    cases k with
    | zero => simp [Enough] at ha
    | succ k => exact ⟨by rw [spend_zero]; rfl, rfl⟩

theorem deallocate_frame (l : Loc) (n : Nat) : Frame (α := α) (deallocate l n) s 0 0 := by
  refine Frame.mem fun c a => ?_
  cases l with
  | stat i => rfl
  | dyn k =>
    have e1 : ∀ c a, (s.tk c a).heap k = s.heap k := fun _ _ => rfl
    simp only [e1, St.er]
    cases s.heap k with
    | none => rfl
    | some x =>
      by_cases h : x.al = s.v.al ∧ x.buf.cap = n
      · simp only [tk_v, h, and_self, if_true]; rfl
      · simp only [tk_v, h, if_false]; rfl

theorem setPtrs_frame (l : Loc) (n cap : Nat) : Frame (α := α) (setPtrs l n cap) s 0 0 := Frame.modify fun _ _ => rfl
theorem setEnd_frame (l : Loc) (n : Nat) : Frame (α := α) (setEnd l n) s 0 0 := Frame.modify fun _ _ => rfl

theorem freeDyn_frame : Frame (α := α) freeDyn s 0 0 :=
  Frame.get (fun _ _ => rfl) (Frame.ite (fun _ => Frame.pure ..) fun _ => deallocate_frame ..)

theorem destroyAll_frame : Frame (α := α) destroyAll s 0 0 :=
  Frame.bind0 (size_frame s) fun _ _ _ _ => Frame.get (fun _ _ => rfl) (onLoc_frame ..)

/-- does `choose_data` allocate? -/
def Needs' (P : Params) (d : Nat) (s : St α) : Prop := if s.v.isStatic then P.N < d else s.v.cap < d

instance (P : Params) (d : Nat) (s : St α) : Decidable (Needs' P d s) := by unfold Needs'; infer_instance

theorem chooseData_frame (P : Params) (d : Nat) : Frame (chooseData P d) s 0 (if Needs' P d s then 1 else 0) := by
  refine Frame.get (fun _ _ => rfl) ?_
  simp only [tk_v, Needs']
  by_cases h1 : s.v.isStatic = true
  · simp only [h1, if_true]
    by_cases h2 : P.N < d
    · simp only [gt_iff_lt, h2, if_true]
      exact Frame.bind (allocate_frame s _) (fun _ t _ _ => Frame.pure _ t)
    · simp only [gt_iff_lt, h2, if_false]
      exact Frame.pure ..
  · simp only [h1, if_false, Bool.false_eq_true]
    by_cases h2 : s.v.cap < d
    · simp only [gt_iff_lt, h2, if_true]
      exact Frame.bind (allocate_frame s _) (fun _ t _ _ => Frame.pure _ t)
    · simp only [gt_iff_lt, h2, if_false]
      exact Frame.ite (fun _ => Frame.pure ..) fun _ => Frame.pure ..

end prims

/-! ### Loops -/

theorem fillAt_frame (r : Ref α) (l : Loc) : ∀ (j p : Nat) (s : St α), Frame (fillAt r l p j) s j 0 := by
  intro j
  induction j with
  | zero => intro p s; exact Frame.pure ..
  | succ j ih =>
    intro p s
    refine Frame.bind0 (loadRef_frame ..) fun x t _ _ => ?_
    exact Frame.bind1 (emplaceAt_frame ..) fun _ t _ _ => ih ..

theorem copyAt_frame (l : Loc) : ∀ (xs : List α) (p : Nat) (s : St α), Frame (copyAt l p xs) s xs.length 0 := by
  intro xs
  induction xs with
  | nil => intro p s; exact Frame.pure ..
  | cons x xs ih =>
    intro p s
    exact Frame.bind1 (emplaceAt_frame ..) fun _ t _ _ => ih ..

theorem pushLoop_frame (r : Ref α) : ∀ (j : Nat) (s : St α), Frame (pushLoop r j) s j 0 := by
  intro j
  induction j with
  | zero => intro s; exact Frame.pure ..
  | succ j ih =>
    intro s
    refine Frame.get (fun _ _ => rfl) (Frame.bind0 (setEnd_frame ..) fun _ t _ _ => ?_)
    refine Frame.bind0 (loadRef_frame ..) fun x t _ _ => ?_
    exact Frame.bind1 (emplaceAt_frame ..) fun _ t _ _ => ih ..

theorem popLoop_frame : ∀ (j : Nat) (s : St α), Frame (popLoop j) s 0 0 := by
  intro j
  induction j with
  | zero => intro s; exact Frame.pure ..
  | succ j ih =>
    intro s
    refine Frame.get (fun _ _ => rfl) (Frame.bind0 (setEnd_frame ..) fun _ t _ _ => ?_)
    exact Frame.bind0 (onLoc_frame ..) fun _ t _ _ => ih ..

theorem fillEnd_frame (r : Ref α) : ∀ (j : Nat) (s : St α), Frame (fillEnd r j) s j 0 := by
  intro j
  induction j with
  | zero => intro s; exact Frame.pure ..
  | succ j ih =>
    intro s
    refine Frame.get (fun _ _ => rfl) (Frame.bind0 (loadRef_frame ..) fun x t _ _ => ?_)
    exact Frame.bind1 (emplaceAt_frame ..) fun _ t _ _ => Frame.bind0 (setEnd_frame ..) fun _ t _ _ => ih ..

theorem copyEnd_frame : ∀ (xs : List α) (s : St α), Frame (copyEnd xs) s xs.length 0 := by
  intro xs
  induction xs with
  | nil => intro s; exact Frame.pure ..
  | cons x xs ih =>
    intro s
    refine Frame.get (fun _ _ => rfl) ?_
    exact Frame.bind1 (emplaceAt_frame ..) fun _ t _ _ => Frame.bind0 (setEnd_frame ..) fun _ t _ _ => ih ..

theorem readUp_frame (l : Loc) : ∀ (n p : Nat) (s : St α), Frame (readUp l p n) s 0 0 := by
  intro n
  induction n with
  | zero => intro p s; exact Frame.pure ..
  | succ n ih =>
    intro p s
    exact Frame.bind0 (loadRef_frame ..) fun _ t _ _ => Frame.bind0 (ih ..) fun _ t _ _ => Frame.pure ..

theorem readDown_frame (l : Loc) : ∀ (p : Nat) (s : St α), Frame (readDown l p) s 0 0 := by
  intro p
  induction p with
  | zero => intro s; exact Frame.pure ..
  | succ p ih =>
    intro s
    exact Frame.bind0 (loadRef_frame ..) fun _ t _ _ => Frame.bind0 (ih ..) fun _ t _ _ => Frame.pure ..

end Itlib.SmallVector
