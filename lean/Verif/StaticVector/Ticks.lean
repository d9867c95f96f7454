import Verif.StaticVector.StepLemmas
import Verif.StaticVector.ThrowExec

/-! # Throw points (proof engineering): a call with a late one behaves as one without -/
namespace Itlib.StaticVector
open Itlib Spec
variable {α β γ : Type}

/-- the state without throw points -/
abbrev SV.er (s : SV α) : SV α := s.tk none

@[simp] theorem tk_tk (s : SV α) (c c' : Option Nat) : (s.tk c).tk c' = s.tk c' := rfl
@[simp] theorem tk_tick (s : SV α) (c : Option Nat) : (s.tk c).tick = c := rfl
@[simp] theorem tk_size (s : SV α) (c : Option Nat) : (s.tk c).size = s.size := rfl
@[simp] theorem tk_buf (s : SV α) (c : Option Nat) : (s.tk c).buf = s.buf := rfl
@[simp] theorem er_rep (cap : Nat) (xs : List α) : (rep cap xs).er = rep cap xs := rfl

/-- at least `n` more do not throw -/
def Enough : Option Nat → Nat → Prop
  | none, _ => True
  | some k, n => n ≤ k

/-- the throw point after `n` -/
def spend (c : Option Nat) (n : Nat) : Option Nat := c.map (· - n)

@[simp] theorem spend_zero (c : Option Nat) : spend c 0 = c := by cases c <;> rfl
@[simp] theorem enough_zero (c : Option Nat) : Enough c 0 := by cases c <;> simp [Enough]
theorem enough_add {c : Option Nat} {m n : Nat} (h : Enough c (m + n)) : Enough c m ∧ Enough (spend c m) n := by
  cases c with
  | none => exact ⟨trivial, trivial⟩
  | some k => simp only [Enough, spend, Option.map_some] at *; omega
theorem spend_add (c : Option Nat) (m n : Nat) : spend (spend c m) n = spend c (m + n) := by
  cases c with
  | none => rfl
  | some k => simp only [spend, Option.map_some, Option.some.injEq]; omega

theorem fault_cases (c : Option Nat) (n : Nat) :
    (fault c n = none ∧ Enough c n) ∨ ∃ k, c = some k ∧ k < n ∧ fault c n = some k := by
  cases c with
  | none => exact Or.inl ⟨rfl, trivial⟩
  | some k =>
    by_cases h : k < n
    · exact Or.inr ⟨k, rfl, h, by simp [fault, h]⟩
    · exact Or.inl ⟨by simp [fault, h], by simp only [Enough]; omega⟩

/-- outcome `g` is outcome `f` with the throw point `c` if it is a return -/
def Same (c : Option Nat) : Res (SV α) β → Res (SV α) β → Prop
  | .ok b t, g => g = .ok b (t.tk c) ∧ t.er = t
  | .throw e t, g => ∃ c', g = .throw e (t.tk c')
  | .ub, g => g = .ub

/-- `f`, run in `s`, makes `n` copies if it returns -/
structure Frame (f : M (SV α) β) (s : SV α) (n : Nat) : Prop where
  run : ∀ c, Enough c n → Same (spend c n) (f s.er) (f (s.tk c))

theorem Frame.pure (b : β) (s : SV α) : Frame (pure b) s 0 := by
  refine ⟨fun c _ => ?_⟩
  simp [Same]

theorem Frame.raise (e : Exc) (s : SV α) : Frame (M.raise e : M (SV α) β) s 0 := by
  refine ⟨fun c _ => ?_⟩
  exact ⟨c, rfl⟩

theorem Frame.undef (s : SV α) (n : Nat) : Frame (M.undef : M (SV α) β) s n := by
  refine ⟨fun c _ => ?_⟩
  rfl

theorem Frame.bind {f : M (SV α) β} {g : β → M (SV α) γ} {s : SV α} {n n' : Nat} (hf : Frame f s n)
    (hg : ∀ b t, f s.er = .ok b t → t.er = t → Frame (g b) t n') : Frame (f >>= g) s (n + n') := by
  refine ⟨fun c hc => ?_⟩
  have hc := enough_add hc
  have h := hf.run c hc.1
  simp only [M.bind_apply]
  cases e : f s.er with
  | ok b t =>
    rw [e] at h
    obtain ⟨h1, h2⟩ := h
    rw [h1]
    have := (hg b t e h2).run _ hc.2
    rw [spend_add, h2] at this
    exact this
  | throw ex t =>
    rw [e] at h
    obtain ⟨c', h1⟩ := h
    rw [h1]
    exact ⟨c', rfl⟩
  | ub =>
    rw [e] at h
    have h1 : f (s.tk c) = .ub := h
    rw [h1]
    rfl

theorem Frame.bind0 {f : M (SV α) β} {g : β → M (SV α) γ} {s : SV α} {n : Nat} (hf : Frame f s 0)
    (hg : ∀ b t, f s.er = .ok b t → t.er = t → Frame (g b) t n) : Frame (f >>= g) s n := by
  simpa using Frame.bind hf hg

theorem Frame.bind1 {f : M (SV α) β} {g : β → M (SV α) γ} {s : SV α} {n : Nat} (hf : Frame f s 1)
    (hg : ∀ b t, f s.er = .ok b t → t.er = t → Frame (g b) t n) : Frame (f >>= g) s (n + 1) := by
  rw [Nat.add_comm]
  exact Frame.bind hf hg

/-- a bind whose second part makes no copies -/
theorem Frame.bindN {f : M (SV α) β} {g : β → M (SV α) γ} {s : SV α} {n : Nat} (hf : Frame f s n)
    (hg : ∀ b t, f s.er = .ok b t → t.er = t → Frame (g b) t 0) : Frame (f >>= g) s n := by
  simpa using Frame.bind hf hg

/-- reading the state; what follows must not look at the throw points -/
theorem Frame.get {g : SV α → M (SV α) γ} {s : SV α} {n : Nat} (hc : ∀ c, g (s.tk c) = g s.er)
    (hg : Frame (g s.er) s n) : Frame (M.get >>= g) s n := by
  refine ⟨fun c h1 => ?_⟩
  simp only [M.bind_apply, M.get_apply, hc c]
  exact hg.run c h1

theorem Frame.ite {p : Prop} [Decidable p] {f g : M (SV α) β} {s : SV α} {n : Nat} (hf : p → Frame f s n)
    (hg : ¬ p → Frame g s n) : Frame (if p then f else g) s n := by
  split
  · exact hf ‹_›
  · exact hg ‹_›

theorem Frame.modify {f : SV α → SV α} {s : SV α} (h : ∀ c, f (s.tk c) = (f s.er).tk c) : Frame (M.modify f) s 0 := by
  refine ⟨fun c _ => ?_⟩
  simp only [M.modify_apply, Same, spend_zero]
  exact ⟨by rw [h], by rw [h]; rfl⟩

theorem Frame.mem {f : SV α → Option (SV α)} {s : SV α} (h : ∀ c, f (s.tk c) = (f s.er).map (·.tk c)) :
    Frame (M.mem f) s 0 := by
  refine ⟨fun c _ => ?_⟩
  simp only [M.mem, h c, spend_zero]
  cases e : f s.er with
  | none => rfl
  | some t =>
    refine ⟨rfl, ?_⟩
    have h1 := h none
    rw [show s.tk none = s.er from rfl, e] at h1
    simpa using h1.symm

theorem Frame.load {f : SV α → Option β} {s : SV α} (h : ∀ c, f (s.tk c) = f s.er) : Frame (M.load f) s 0 := by
  refine ⟨fun c _ => ?_⟩
  simp only [M.load, h c, spend_zero]
  cases e : f s.er with
  | none => rfl
  | some t => exact ⟨rfl, rfl⟩

section prims
variable (s : SV α)

theorem onBuf_frame (f : Buf α → Option (Buf α)) : Frame (onBuf f) s 0 := by
  refine Frame.mem fun c => ?_
  simp only [tk_buf, Option.map_map]
  rfl

theorem emplaceAt_frame (i : Nat) (x : α) : Frame (emplaceAt i x) s 1 := by
  refine ⟨fun c hc => ?_⟩
  simp only [emplaceAt, tk_buf]
  cases s.buf.construct i x with
  | none => rfl
  | some b =>
    cases c with
    | none => exact ⟨rfl, rfl⟩
    | some k =>
      cases k with
      | zero => simp [Enough] at hc
      | succ k => exact ⟨rfl, rfl⟩

theorem readArg_frame (v : Arg α) : Frame (readArg v) s 0 := by
  cases v with
  | val a => exact Frame.pure ..
  | self i => exact Frame.load fun c => rfl

theorem outOfRangeIf_frame (p : Prop) [Decidable p] : Frame (α := α) (outOfRangeIf p) s 0 :=
  Frame.ite (fun _ => Frame.raise ..) fun _ => Frame.pure ..

theorem at_frame (i : Nat) : Frame (α := α) (at_ i) s 0 := by
  refine ⟨fun c _ => ?_⟩
  simp only [at_, tk_size, tk_buf, spend_zero]
  by_cases h : i < s.size
  · simp only [h, if_true]
    cases s.buf.read i with
    | none => rfl
    | some a => exact ⟨rfl, rfl⟩
  · simp only [h, if_false]; rfl

theorem back_frame : Frame (α := α) back s 0 := by
  refine ⟨fun c hc => ?_⟩
  simp only [back, tk_size]
  by_cases h : s.size = 0
  · simp only [h, if_true]; rfl
  · simp only [h, if_false]
    exact (at_frame s _).run c hc

theorem clear_frame : Frame (α := α) clear s 0 :=
  Frame.get (fun _ => rfl) (Frame.bind0 (onBuf_frame ..) fun _ _ _ _ => Frame.modify fun _ => rfl)

theorem pushBack_frame (v : Arg α) : Frame (pushBack v) s 1 := by
  refine Frame.get (fun _ => rfl) (Frame.bind0 (outOfRangeIf_frame ..) fun _ t _ _ => ?_)
  refine Frame.bind0 (readArg_frame ..) fun x t _ _ => ?_
  exact Frame.bindN (emplaceAt_frame ..) fun _ t _ _ => Frame.modify fun _ => rfl

theorem emplaceBack_frame (v : Arg α) : Frame (emplaceBack v) s 1 := by
  refine Frame.get (fun _ => rfl) (Frame.bind0 (outOfRangeIf_frame ..) fun _ t _ _ => ?_)
  refine Frame.bind0 (readArg_frame ..) fun x t _ _ => ?_
  refine Frame.bindN (emplaceAt_frame ..) fun _ t _ _ => ?_
  refine Frame.bind0 (Frame.modify fun _ => rfl) fun _ t _ _ => ?_
  refine Frame.get (fun _ => rfl) (Frame.bind0 (back_frame ..) fun _ t _ _ => Frame.pure ..)

theorem growAt_frame (E : Elem α) (p n : Nat) : Frame (growAt E p n) s 0 := by
  refine Frame.get (fun _ => rfl) (Frame.bind0 (outOfRangeIf_frame ..) fun _ t _ _ => ?_)
  refine Frame.ite (fun _ => Frame.ite (fun _ => Frame.pure ..) fun _ => ?_) fun _ => Frame.undef ..
  exact Frame.bind0 (onBuf_frame ..) fun _ t _ _ => Frame.bind0 (Frame.modify fun _ => rfl) fun _ t _ _ => Frame.pure ..

theorem shrinkAt_frame (E : Elem α) (p n : Nat) : Frame (shrinkAt E p n) s 0 := by
  refine Frame.get (fun _ => rfl) (Frame.bind0 (outOfRangeIf_frame ..) fun _ t _ _ => ?_)
  refine Frame.ite (fun _ => Frame.ite (fun _ => ?_) fun _ => ?_) fun _ => Frame.undef ..
  · exact Frame.bind0 (clear_frame ..) fun _ t _ _ => Frame.pure ..
  · exact Frame.bind0 (onBuf_frame ..) fun _ t _ _ => Frame.bind0 (onBuf_frame ..) fun _ t _ _ =>
      Frame.bind0 (Frame.modify fun _ => rfl) fun _ t _ _ => Frame.pure ..

theorem popBack_frame (E : Elem α) : Frame (popBack E) s 0 :=
  Frame.get (fun _ => rfl) (Frame.bind0 (shrinkAt_frame ..) fun _ t _ _ => Frame.pure ..)

end prims

/-! ### Loops -/

theorem fillLoop_frame (v : Arg α) : ∀ (j p : Nat) (s : SV α), Frame (fillLoop v p j) s j := by
  intro j
  induction j with
  | zero => intro p s; exact Frame.pure ..
  | succ j ih =>
    intro p s
    refine Frame.bind0 (readArg_frame ..) fun x t _ _ => ?_
    exact Frame.bind1 (emplaceAt_frame ..) fun _ t _ _ => ih ..

theorem copyLoop_frame : ∀ (xs : List α) (p : Nat) (s : SV α), Frame (copyLoop p xs) s xs.length := by
  intro xs
  induction xs with
  | nil => intro p s; exact Frame.pure ..
  | cons x xs ih =>
    intro p s
    exact Frame.bind1 (emplaceAt_frame ..) fun _ t _ _ => ih ..

theorem pushN_frame (v : Arg α) : ∀ (j : Nat) (s : SV α), Frame (pushN v j) s j := by
  intro j
  induction j with
  | zero => intro s; exact Frame.pure ..
  | succ j ih =>
    intro s
    exact Frame.bind1 (pushBack_frame ..) fun _ t _ _ => ih ..

theorem pushAll_frame : ∀ (xs : List α) (s : SV α), Frame (pushAll xs) s xs.length := by
  intro xs
  induction xs with
  | nil => intro s; exact Frame.pure ..
  | cons x xs ih =>
    intro s
    exact Frame.bind1 (pushBack_frame ..) fun _ t _ _ => ih ..

theorem popLoop_frame (E : Elem α) (n : Nat) : ∀ (f : Nat) (s : SV α), Frame (popLoop E n f) s 0 := by
  intro f
  induction f with
  | zero => intro s; exact Frame.get (fun _ => rfl) (Frame.ite (fun _ => Frame.undef ..) fun _ => Frame.pure ..)
  | succ f ih =>
    intro s
    refine Frame.get (fun _ => rfl) (Frame.ite (fun _ => ?_) fun _ => Frame.pure ..)
    exact Frame.bind0 (popBack_frame ..) fun _ t _ _ => ih ..

theorem pushLoop_frame {v : Arg α} {a : α} {cap n : Nat} (hn : n ≤ cap) : ∀ (f : Nat) (xs : List α),
    (xs.length < n → argVal xs v = some a) → Frame (pushLoop v n f) (rep cap xs) (n - xs.length) := by
  intro f
  induction f with
  | zero =>
    intro xs _
    refine Frame.get (fun _ => rfl) ?_
    simp only [tk_size, rep_size]
    refine Frame.ite (fun _ => Frame.undef ..) fun h => ?_
    rw [show n - xs.length = 0 by omega]
    exact Frame.pure ..
  | succ f ih =>
    intro xs ha
    refine Frame.get (fun _ => rfl) ?_
    simp only [tk_size, rep_size]
    refine Frame.ite (fun h => ?_) fun h => ?_
    · rw [show n - xs.length = (n - (xs.length + 1)) + 1 by omega]
      refine Frame.bind1 (pushBack_frame ..) fun _ t ht _ => ?_
      rw [er_rep, pushBack_rep (ha h) (by omega)] at ht
      simp only [Res.ok.injEq, true_and] at ht
      subst ht
      have := ih (xs ++ [a]) (fun h' => by
        have h1 := ha h
        cases v with
        | val b => exact h1
        | self i =>
          simp only [argVal] at h1 ⊢
          rw [List.getElem?_append_left (List.getElem?_eq_some_iff.mp h1).1]
          exact h1)
      simpa using this
    · rw [show n - xs.length = 0 by omega]
      exact Frame.pure ..

theorem readUp_frame : ∀ (n p : Nat) (s : SV α), Frame (readUp p n) s 0 := by
  intro n
  induction n with
  | zero => intro p s; exact Frame.pure ..
  | succ n ih =>
    intro p s
    exact Frame.bind0 (Frame.load fun _ => rfl) fun _ t _ _ => Frame.bind0 (ih ..) fun _ t _ _ => Frame.pure ..

theorem readDown_frame : ∀ (p : Nat) (s : SV α), Frame (readDown p) s 0 := by
  intro p
  induction p with
  | zero => intro s; exact Frame.pure ..
  | succ p ih =>
    intro s
    exact Frame.bind0 (Frame.load fun _ => rfl) fun _ t _ _ => Frame.bind0 (ih ..) fun _ t _ _ => Frame.pure ..

/-! ### Calls -/

theorem resizeV_frame (E : Elem α) {v : Arg α} {a : α} {cap n : Nat} {xs : List α} (hc : xs.length ≤ cap)
    (ha : xs.length < n → argVal xs v = some a) :
    Frame (resizeV E n v) (rep cap xs) (if n ≤ cap then n - xs.length else 0) := by
  refine Frame.get (fun _ => rfl) (Frame.bind0 (outOfRangeIf_frame ..) fun _ t ht _ => ?_)
  have hn : n ≤ cap := by
    apply Classical.byContradiction
    intro h
    simp [outOfRangeIf, show cap < n by omega] at ht
  rw [if_pos hn]
  have ht : t = rep cap xs := by
    simp [outOfRangeIf, show ¬ cap < n by omega] at ht
    exact ht.symm
  subst ht
  refine Frame.bind0 (popLoop_frame ..) fun _ t ht _ => ?_
  rw [er_rep, rep_size, popLoop_rep E n _ xs hc (by omega)] at ht
  simp only [Res.ok.injEq, true_and] at ht
  subst ht
  have := pushLoop_frame (v := v) (a := a) hn n (xs.take n) (fun h => by
    simp only [List.length_take] at h
    rw [List.take_of_length_le (by omega)]
    exact ha (by omega))
  rwa [show n - (xs.take n).length = n - xs.length by simp; omega] at this

theorem assignImplVal_frame {v : Arg α} {n : Nat} (s : SV α) : Frame (assignImplVal n v) s n :=
  Frame.get (fun _ => rfl) (Frame.bind0 (outOfRangeIf_frame ..) fun _ _ _ _ => pushN_frame ..)

theorem assignImplRange_frame {xs : List α} (s : SV α) : Frame (assignImplRange xs) s xs.length :=
  Frame.get (fun _ => rfl) (Frame.bind0 (outOfRangeIf_frame ..) fun _ _ _ _ => pushAll_frame ..)

/-- a frame whose count does not matter, as the run throws without making anything -/
theorem Frame.of_throw {f : M (SV α) β} {s : SV α} {e : Exc} {n : Nat}
    (h : ∀ c, f (s.tk c) = .throw e (s.tk c)) : Frame f s n := by
  refine ⟨fun c _ => ?_⟩
  rw [h none, h c]
  exact ⟨c, rfl⟩

theorem exec_frame (E : Elem α) {cap : Nat} {op : Op α} {xs : List α} (hcap' : cap < 2 ^ 63)
    (hc : xs.length ≤ cap) (hs : Safe cap op xs) (h : (step cap E op xs).isSome) :
    Frame (exec E op) (rep cap xs) (made cap op xs) := by
  have hm : cap < sizeMod := by simp only [sizeMod]; omega
  cases op with
  | pushBack v =>
    refine Frame.bindN ?_ fun _ t _ _ => Frame.pure ..
    simp only [made]
    split
    · exact pushBack_frame ..
    · rename_i hl
      exact Frame.of_throw (e := .outOfRange) fun c => by simp [pushBack, outOfRangeIf, show cap ≤ xs.length by omega]
  | emplaceBack v =>
    refine Frame.bindN ?_ fun _ t _ _ => Frame.pure ..
    simp only [made]
    split
    · exact emplaceBack_frame ..
    · rename_i hl
      exact Frame.of_throw (e := .outOfRange) fun c => by simp [emplaceBack, outOfRangeIf, show cap ≤ xs.length by omega]
  | popBack => exact Frame.bind0 (popBack_frame ..) fun _ t _ _ => Frame.pure ..
  | insert pos v =>
    refine Frame.bindN ?_ fun _ t _ _ => Frame.pure ..
    refine Frame.bind0 (growAt_frame ..) fun _ t ht _ => ?_
    simp only [made]
    by_cases hl : xs.length < cap
    · rw [if_pos hl]
      exact Frame.bind0 (readArg_frame ..) fun _ t _ _ => Frame.bindN (emplaceAt_frame ..) fun _ t _ _ => Frame.pure ..
    · rw [er_rep, growAt_full E (by omega) (by simp only [sizeMod]; omega)] at ht
      simp at ht
  | insertN pos n v =>
    refine Frame.bindN ?_ fun _ t _ _ => Frame.pure ..
    refine Frame.bind0 (growAt_frame ..) fun _ t ht _ => ?_
    simp only [made]
    by_cases hl : xs.length + n ≤ cap
    · rw [if_pos hl]
      exact Frame.bindN (fillLoop_frame ..) fun _ t _ _ => Frame.pure ..
    · rw [er_rep, growAt_full E (by omega) (by simpa only [sizeMod] using hs.1)] at ht
      simp at ht
  | insertRange pos ys =>
    refine Frame.bindN ?_ fun _ t _ _ => Frame.pure ..
    refine Frame.bind0 (growAt_frame ..) fun _ t ht _ => ?_
    simp only [made]
    by_cases hl : xs.length + ys.length ≤ cap
    · rw [if_pos hl]
      exact Frame.bindN (copyLoop_frame ..) fun _ t _ _ => Frame.pure ..
    · rw [er_rep, growAt_full E (by omega) hs] at ht
      simp at ht
  | erase pos => exact Frame.bind0 (shrinkAt_frame ..) fun _ t _ _ => Frame.pure ..
  | eraseRange f l =>
    exact Frame.bind0 (Frame.ite (fun _ => shrinkAt_frame ..) fun _ => Frame.undef ..) fun _ t _ _ => Frame.pure ..
  | clear => exact Frame.bind0 (clear_frame ..) fun _ t _ _ => Frame.pure ..
  | resize n => exact Frame.bindN (resizeV_frame E (a := E.dflt) hc fun _ => rfl) fun _ t _ _ => Frame.pure ..
  | resizeV n v =>
    simp only [step, Option.bind_eq_bind] at h
    cases ha : argVal xs v with
    | none => simp [ha] at h
    | some a => exact Frame.bindN (resizeV_frame E (a := a) hc fun _ => ha) fun _ t _ _ => Frame.pure ..
  | assignN n v =>
    simp only [made, if_pos hs.1]
    exact Frame.bindN (Frame.bind0 (clear_frame ..) fun _ t _ _ => assignImplVal_frame ..) fun _ t _ _ => Frame.pure ..
  | assignRange ys =>
    simp only [made, if_pos (show ys.length ≤ cap from hs)]
    exact Frame.bindN (Frame.bind0 (clear_frame ..) fun _ t _ _ => assignImplRange_frame ..) fun _ t _ _ => Frame.pure ..
  | set i v =>
    refine Frame.bind0 ?_ fun _ t _ _ => Frame.pure ..
    exact Frame.bind0 (readArg_frame ..) fun _ t _ _ => Frame.bind0 (at_frame ..) fun _ t _ _ => onBuf_frame ..
  | moveElem i j =>
    refine Frame.bind0 ?_ fun _ t _ _ => Frame.pure ..
    refine Frame.bind0 (at_frame ..) fun _ t _ _ => Frame.bind0 (at_frame ..) fun _ t _ _ => ?_
    refine Frame.ite (fun _ => Frame.undef ..) fun _ => ?_
    exact Frame.bind0 (onBuf_frame ..) fun _ t _ _ => onBuf_frame ..
  | get i => exact Frame.bind0 (at_frame ..) fun _ t _ _ => Frame.pure ..
  | front => exact Frame.bind0 (at_frame ..) fun _ t _ _ => Frame.pure ..
  | back => exact Frame.bind0 (back_frame ..) fun _ t _ _ => Frame.pure ..
  | size => exact Frame.bind0 (Frame.get (fun _ => rfl) (Frame.pure ..)) fun _ t _ _ => Frame.pure ..
  | isEmpty => exact Frame.bind0 (Frame.get (fun _ => rfl) (Frame.pure ..)) fun _ t _ _ => Frame.pure ..
  | capacity => exact Frame.bind0 (Frame.get (fun _ => rfl) (Frame.pure ..)) fun _ t _ _ => Frame.pure ..
  | forward => exact Frame.bind0 (Frame.get (fun _ => rfl) (readUp_frame ..)) fun _ t _ _ => Frame.pure ..
  | backward => exact Frame.bind0 (Frame.get (fun _ => rfl) (readDown_frame ..)) fun _ t _ _ => Frame.pure ..

end Itlib.StaticVector
