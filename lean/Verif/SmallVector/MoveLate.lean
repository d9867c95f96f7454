import Verif.SmallVector.ThrowStep
import Verif.SmallVector.MoveModel

/-! # Moves that do not throw (proof engineering): the functions of MoveModel.lean are then those of Model.lean -/
namespace Itlib.SmallVector
open Itlib Spec
variable {α β γ σ : Type}

/-- `f` does what `g` does in the state `s` if the throw point is beyond `n` moves, and then makes `n` of them. (Nothing is
said if `g` has undefined behaviour.) -/
def Late (f : M (Mv σ) β) (g : M σ β) (s : σ) (n : Nat) : Prop :=
  ∀ m, Enough m n →
    match g s with
    | .ok b t => f ⟨s, m⟩ = .ok b ⟨t, spend m n⟩
    | .throw e t => ∃ m', f ⟨s, m⟩ = .throw e ⟨t, m'⟩
    | .ub => True

theorem late_lift (g : M σ β) (s : σ) : Late (lift g) g s 0 := by
  intro m _
  simp only [lift]
  cases g s <;> simp

theorem late_may (bad good : M σ Unit) (s : σ) : Late (mayThrow bad good) good s 1 := by
  intro m hm
  cases m with
  | none => simp only [mayThrow, lift]; cases good s <;> simp [spend]
  | some k =>
    cases k with
    | zero => simp [Enough] at hm
    | succ k => simp only [mayThrow, lift]; cases good s <;> simp [spend]

theorem late_pure (b : β) (s : σ) : Late (pure b) (pure b) s 0 := by
  intro m _
  simp

theorem late_raise (e : Exc) (s : σ) (n : Nat) : Late (lift (M.raise e) : M (Mv σ) β) (M.raise e) s n := by
  intro m _
  exact ⟨m, rfl⟩

theorem late_undef (f : M (Mv σ) β) (s : σ) (n : Nat) : Late f M.undef s n := by
  intro m _
  trivial

theorem late_bind {f : M (Mv σ) β} {g : M σ β} {f' : β → M (Mv σ) γ} {g' : β → M σ γ} {s : σ}
    {n n' : Nat} (h : Late f g s n) (h' : ∀ b t, g s = .ok b t → Late (f' b) (g' b) t n') :
    Late (f >>= f') (g >>= g') s (n + n') := by
  intro m hm
  obtain ⟨h1, h2⟩ := enough_add hm
  have := h m h1
  simp only [M.bind_apply]
  cases e : g s with
  | ok b t =>
    rw [e] at this
    have h3 := h' b t e _ h2
    simp only [this]
    cases e' : g' b t with
    | ok c u => rw [e'] at h3; simp only [h3, spend_add]
    | throw x u => rw [e'] at h3; exact h3
    | ub => trivial
  | throw x t =>
    rw [e] at this
    obtain ⟨m', h3⟩ := this
    exact ⟨m', by simp only [h3]⟩
  | ub => trivial

theorem late_n {f : M (Mv σ) β} {g : M σ β} {s : σ} {n n' : Nat} (h : Late f g s n) (e : n = n') : Late f g s n' := e ▸ h

/-- code that does not move, first -/
theorem late_then {g : M σ β} {f' : β → M (Mv σ) γ} {g' : β → M σ γ} {s : σ} {n' : Nat}
    (h' : ∀ b t, g s = .ok b t → Late (f' b) (g' b) t n') : Late (lift g >>= f') (g >>= g') s n' :=
  late_n (late_bind (late_lift g s) h') (Nat.zero_add _)

/-- code that does not move, last -/
theorem late_end {f : M (Mv σ) β} {g : M σ β} {f' : β → M (Mv σ) γ} {g' : β → M σ γ} {s : σ} {n : Nat}
    (h : Late f g s n) (h' : ∀ b t, g s = .ok b t → Late (f' b) (g' b) t 0) : Late (f >>= f') (g >>= g') s n :=
  late_bind h h'

theorem late_congr {f : M (Mv σ) β} {g g' : M σ β} {s : σ} {n : Nat} (h : Late f g s n) (e : g' s = .ub ∨ g s = g' s) :
    Late f g' s n := by
  intro m hm
  rcases e with e | e
  · rw [e]; trivial
  · have := h m hm
    rwa [e] at this

theorem Late.ok {f : M (Mv σ) β} {g : M σ β} {s t : σ} {n : Nat} {b : β} (h : Late f g s n) {m : Option Nat}
    (hm : Enough m n) (e : g s = .ok b t) : f ⟨s, m⟩ = .ok b ⟨t, spend m n⟩ := by
  have := h m hm
  rwa [e] at this

theorem Late.throw {f : M (Mv σ) β} {g : M σ β} {s t : σ} {n : Nat} {x : Exc} (h : Late f g s n) {m : Option Nat}
    (hm : Enough m n) (e : g s = .throw x t) : ∃ m', f ⟨s, m⟩ = .throw x ⟨t, m'⟩ := by
  have := h m hm
  rwa [e] at this

/-! ### Operations on storage, one after another -/

theorem buf_setSame {s : St α} {l : Loc} {b b' : Buf α} (h : s.buf l = some b) : (s.setBuf l b').buf l = some b' := by
  cases l with
  | stat i =>
    simp only [St.buf] at h
    by_cases e : i = s.v.self
    · simp [St.setBuf, St.buf, e]
    · simp [e] at h
  | dyn k => simp only [St.buf, Option.map_eq_some_iff] at h; obtain ⟨x, hx, _⟩ := h; simp [St.setBuf, St.buf, hx]

theorem buf_setBuf_ne {s : St α} {l l' : Loc} {b b' c : Buf α} (hl : s.buf l = some c) (h : s.buf l' = some b) (hne : l' ≠ l) :
    (s.setBuf l b').buf l' = some b := by
  cases l with
  | stat i =>
    cases l' with
    | stat j =>
      simp only [St.buf] at h hl
      split at h <;> split at hl <;> simp_all
    | dyn k => exact h
  | dyn k =>
    cases l' with
    | stat j => exact h
    | dyn k' => simp only [St.buf, St.setBuf] at *; rw [Function.update_of_ne (by simpa using hne)]; exact h

theorem setBuf_setBuf (s : St α) (l : Loc) (b b' : Buf α) : (s.setBuf l b).setBuf l b' = s.setBuf l b' := by
  cases l with
  | stat i => rfl
  | dyn k => simp only [St.setBuf, Function.update_self, Function.update_idem]; cases s.heap k <;> rfl

theorem setBuf_self {s : St α} {l : Loc} {b : Buf α} (h : s.buf l = some b) : s.setBuf l b = s := by
  cases l with
  | stat i => simp only [St.buf] at h; split at h <;> simp_all [St.setBuf]; cases h; rfl
  | dyn k =>
    simp only [St.buf, Option.map_eq_some_iff] at h
    obtain ⟨x, hx, rfl⟩ := h
    simp only [St.setBuf, hx, Option.map_some]
    rw [← hx, Function.update_eq_self]

theorem setBuf_comm {s : St α} {l l' : Loc} {b b' c c' : Buf α} (hl : s.buf l = some c) (hl' : s.buf l' = some c') (hne : l ≠ l') :
    (s.setBuf l b).setBuf l' b' = (s.setBuf l' b').setBuf l b := by
  cases l with
  | stat i =>
    cases l' with
    | stat j =>
      simp only [St.buf] at hl hl'
      split at hl <;> split at hl' <;> simp_all
    | dyn k => rfl
  | dyn k =>
    cases l' with
    | stat j => rfl
    | dyn k' =>
      have : k ≠ k' := by simpa using hne
      simp only [St.setBuf, Function.update_of_ne this, Function.update_of_ne (Ne.symm this)]
      rw [Function.update_comm this]

theorem onLoc_bind (l : Loc) (f g : Buf α → Option (Buf α)) :
    onLoc l (fun b => (f b).bind g) = (onLoc l f >>= fun _ => onLoc l g) := by
  funext s
  simp only [onLoc, M.mem, M.bind_apply]
  cases hb : s.buf l with
  | none => rfl
  | some b =>
    simp only [Option.bind_eq_bind, Option.bind_some]
    cases f b with
    | none => rfl
    | some b1 => simp only [Option.bind_some, buf_setSame hb, setBuf_setBuf]

theorem onLoc_some {l : Loc} {s : St α} : onLoc l (fun b => some b) s = .ub ∨ onLoc l (fun b => some b) s = .ok () s := by
  simp only [onLoc, M.mem]
  cases hb : s.buf l with
  | none => left; rfl
  | some b => right; simp [setBuf_self hb]

theorem onLoc2_bind (l l' : Loc) (f : Buf α → Buf α → Option (Buf α × Buf α)) (g : Buf α → Buf α → Option (Buf α × Buf α)) :
    onLoc2 l l' (fun b c => (f b c).bind fun p => g p.1 p.2) = (onLoc2 l l' f >>= fun _ => onLoc2 l l' g) := by
  funext s
  simp only [onLoc2, M.mem, M.bind_apply]
  by_cases hl : l = l'
  · simp [hl]
  simp only [hl, if_false]
  cases hb : s.buf l with
  | none => rfl
  | some b =>
    cases hc : s.buf l' with
    | none => rfl
    | some c =>
      simp only [Option.bind_eq_bind, Option.bind_some]
      cases f b c with
      | none => rfl
      | some p =>
        obtain ⟨b1, c1⟩ := p
        have h1 : (s.setBuf l b1).buf l' = some c := buf_setBuf_ne hb hc (Ne.symm hl)
        have h2 : ((s.setBuf l b1).setBuf l' c1).buf l = some b1 := buf_setBuf_ne h1 (buf_setSame hb) hl
        simp only [Option.bind_some, h2, buf_setSame h1]
        cases g b1 c1 with
        | none => rfl
        | some q =>
          simp only [Option.bind_some]
          rw [← setBuf_comm (buf_setSame hb) h1 hl, setBuf_setBuf, setBuf_setBuf]

theorem onLoc2_onLoc (l l' : Loc) (f : Buf α → Buf α → Option (Buf α × Buf α)) (g : Buf α → Option (Buf α)) :
    onLoc2 l l' (fun b c => (f b c).bind fun p => (g p.1).map (·, p.2)) = (onLoc2 l l' f >>= fun _ => onLoc l g) := by
  funext s
  simp only [onLoc2, onLoc, M.mem, M.bind_apply]
  by_cases hl : l = l'
  · simp [hl]
  simp only [hl, if_false]
  cases hb : s.buf l with
  | none => rfl
  | some b =>
    cases hc : s.buf l' with
    | none => rfl
    | some c =>
      simp only [Option.bind_eq_bind, Option.bind_some]
      cases f b c with
      | none => rfl
      | some p =>
        obtain ⟨b1, c1⟩ := p
        have h1 : (s.setBuf l b1).buf l' = some c := buf_setBuf_ne hb hc (Ne.symm hl)
        have h2 : ((s.setBuf l b1).setBuf l' c1).buf l = some b1 := buf_setBuf_ne h1 (buf_setSame hb) hl
        simp only [Option.bind_some, h2]
        cases g b1 with
        | none => rfl
        | some q =>
          simp only [Option.bind_some, Option.map_some]
          rw [← setBuf_comm (buf_setSame hb) h1 hl, setBuf_setBuf]

theorem onLoc2_some {l l' : Loc} {s : St α} :
    onLoc2 l l' (fun b c => some (b, c)) s = .ub ∨ onLoc2 l l' (fun b c => some (b, c)) s = .ok () s := by
  simp only [onLoc2, M.mem]
  by_cases hl : l = l'
  · simp [hl]
  simp only [hl, if_false]
  cases hb : s.buf l with
  | none => left; rfl
  | some b =>
    cases hc : s.buf l' with
    | none => left; rfl
    | some c => right; simp [setBuf_self hb, setBuf_self hc]

/-- changes that do not concern storage -/
structure Apart (u : St α → St α) : Prop where
  buf : ∀ s l, (u s).buf l = s.buf l
  set : ∀ s l b, u (s.setBuf l b) = (u s).setBuf l b

theorem Apart.onLoc {u : St α → St α} (h : Apart u) (l : Loc) (f : Buf α → Option (Buf α)) :
    (M.modify u >>= fun _ => SmallVector.onLoc l f) = (SmallVector.onLoc l f >>= fun _ => M.modify u) := by
  funext s
  simp only [SmallVector.onLoc, M.mem, M.bind_apply, M.modify_apply, h.buf]
  cases s.buf l with
  | none => rfl
  | some b =>
    simp only [Option.bind_eq_bind, Option.bind_some]
    cases f b with
    | none => rfl
    | some b1 => simp [h.set]

theorem Apart.onLoc2 {u : St α → St α} (h : Apart u) (l l' : Loc) (f : Buf α → Buf α → Option (Buf α × Buf α)) :
    (M.modify u >>= fun _ => SmallVector.onLoc2 l l' f) = (SmallVector.onLoc2 l l' f >>= fun _ => M.modify u) := by
  funext s
  simp only [SmallVector.onLoc2, M.mem, M.bind_apply, M.modify_apply, h.buf]
  by_cases hl : l = l'
  · simp [hl]
  simp only [hl, if_false]
  cases s.buf l with
  | none => rfl
  | some b =>
    cases s.buf l' with
    | none => rfl
    | some c =>
      simp only [Option.bind_eq_bind, Option.bind_some]
      cases f b c with
      | none => rfl
      | some p => simp [h.set]

theorem apart_end (l : Loc) (n : Nat) : Apart (fun s : St α => { s with v := { s.v with endp := l, endo := n } }) :=
  ⟨fun _ l' => by cases l' <;> rfl, fun _ l' _ => by cases l' <;> rfl⟩

theorem apart_ptrs (l : Loc) (n c : Nat) :
    Apart (fun s : St α => { s with v := { s.v with bgn := l, endp := l, endo := n, cap := c } }) :=
  ⟨fun _ l' => by cases l' <;> rfl, fun _ l' _ => by cases l' <;> rfl⟩

/-! ### The loops -/

variable (E : Elem α) (tr : α → α)

theorem moveLoop_succ (mv : α → α) (p np k : Nat) : moveLoop mv p np (k+1) =
    fun b c => (moveLoop mv p np 1 b c).bind fun q => moveLoop mv (p+1) (np+1) k q.1 q.2 := by
  funext b c
  simp only [moveLoop, Option.bind_eq_bind, Option.bind_assoc, Option.bind_some]

theorem relocLoop_succ (mv : α → α) (p np k : Nat) : relocLoop mv p np (k+1) =
    fun b c => (moveLoop mv p np 1 b c).bind fun q => ((q.1.destroy p).map (·, q.2)).bind fun q =>
      relocLoop mv (p+1) (np+1) k q.1 q.2 := by
  funext b c
  simp only [moveLoop, relocLoop, Option.bind_eq_bind, Option.bind_assoc, Option.bind_some, Option.map_eq_bind,
    Function.comp]

theorem relocLoop_on (l l' : Loc) (mv : α → α) (p np k : Nat) : onLoc2 l l' (relocLoop mv p np (k+1)) =
    (onLoc2 l l' (moveLoop mv p np 1) >>= fun _ => onLoc l (·.destroy p) >>= fun _ =>
      onLoc2 l l' (relocLoop mv (p+1) (np+1) k)) := by
  rw [relocLoop_succ]
  have e : (fun b c : Buf α => (moveLoop mv p np 1 b c).bind fun q => ((q.1.destroy p).map (·, q.2)).bind fun q =>
      relocLoop mv (p+1) (np+1) k q.1 q.2) =
      fun b c => ((moveLoop mv p np 1 b c).bind fun q => (q.1.destroy p).map (·, q.2)).bind fun q =>
      relocLoop mv (p+1) (np+1) k q.1 q.2 := by
    funext b c
    rw [Option.bind_assoc]
  rw [e, onLoc2_bind, onLoc2_onLoc l l' (moveLoop mv p np 1) (fun b => b.destroy p)]
  funext s
  simp only [M.bind_apply]
  cases onLoc2 l l' (moveLoop mv p np 1) s <;> rfl

theorem moveLoopT_late (l l' : Loc) : ∀ (k p np : Nat) (s : St α),
    Late (moveLoopT E tr l l' p np k) (onLoc2 l l' (moveLoop E.mv p np k)) s k := by
  intro k
  induction k with
  | zero =>
    intro p np s
    refine late_congr (late_pure () s) ?_
    rcases onLoc2_some (l := l) (l' := l') (s := s) with h | h
    · exact Or.inl h
    · exact Or.inr h.symm
  | succ k ih =>
    intro p np s
    rw [moveLoop_succ, onLoc2_bind]
    exact late_n (late_bind (late_may _ _ _) fun b t _ => ih (p+1) (np+1) t) (Nat.add_comm _ _)

theorem relocLoopT_late (l l' : Loc) : ∀ (k p np : Nat) (s : St α),
    Late (relocLoopT E tr l l' p np k) (onLoc2 l l' (relocLoop E.mv p np k)) s k := by
  intro k
  induction k with
  | zero =>
    intro p np s
    refine late_congr (late_pure () s) ?_
    rcases onLoc2_some (l := l) (l' := l') (s := s) with h | h
    · exact Or.inl h
    · exact Or.inr h.symm
  | succ k ih =>
    intro p np s
    rw [relocLoop_on]
    exact late_n (late_bind (late_may _ _ _) fun b t _ => late_then fun b t _ => ih (p+1) (np+1) t) (Nat.add_comm _ _)

theorem shiftUpT_late (l : Loc) (num pos : Nat) : ∀ (k : Nat) (s : St α),
    Late (shiftUpT E tr l num pos k) (onLoc l (Buf.shiftUp E.mv num pos k)) s k := by
  intro k
  induction k with
  | zero =>
    intro s
    refine late_congr (late_pure () s) ?_
    rcases onLoc_some (l := l) (s := s) with h | h
    · exact Or.inl h
    · exact Or.inr h.symm
  | succ k ih =>
    intro s
    have : Buf.shiftUp E.mv num pos (k+1) = (fun b : Buf α => (b.moveConstruct E.mv (pos + k + num) (pos + k)).bind
        fun b => (b.destroy (pos + k)).bind (Buf.shiftUp E.mv num pos k)) := rfl
    rw [this, onLoc_bind, onLoc_bind l (fun b => b.destroy (pos + k))]
    exact late_n (late_bind (late_may _ _ _) fun b t _ => late_then fun b t _ => ih t) (Nat.add_comm _ _)

/-- the rounds of `shiftDown` -/
def downLoop (mv : α → α) : Nat → Nat → Nat → Buf α → Option (Buf α)
  | _, _, 0, b => some b
  | p, np, k+1, b => (b.destroy p).bind fun b => (b.moveConstruct mv p np).bind (downLoop mv (p+1) (np+1) k)

theorem downLoop_of (mv : α → α) (myend : Nat) : ∀ (f p np : Nat) (b b' : Buf α), np ≤ myend →
    b.shiftDown mv myend f p np = some b' → downLoop mv p np (myend - np) b = some b' := by
  intro f
  induction f with
  | zero => intro p np b b' _ h; simp [Buf.shiftDown] at h
  | succ f ih =>
    intro p np b b' hle h
    simp only [Buf.shiftDown] at h
    by_cases e : np = myend
    · subst e
      simpa [downLoop] using h
    · rw [if_neg e] at h
      have e' : myend - np = (myend - (np + 1)) + 1 := by omega
      rw [e']
      simp only [downLoop]
      simp only [Option.bind_eq_bind, Option.bind_eq_some_iff] at h ⊢
      obtain ⟨b1, h1, b2, h2, h3⟩ := h
      exact ⟨b1, h1, b2, h2, ih _ _ _ _ (by omega) h3⟩

theorem shiftDownT_late0 (l : Loc) : ∀ (k p np : Nat) (s : St α),
    Late (shiftDownT E tr l p np k) (onLoc l (downLoop E.mv p np k)) s k := by
  intro k
  induction k with
  | zero =>
    intro p np s
    refine late_congr (late_pure () s) ?_
    rcases onLoc_some (l := l) (s := s) with h | h
    · exact Or.inl h
    · exact Or.inr h.symm
  | succ k ih =>
    intro p np s
    have : downLoop E.mv p np (k+1) = (fun b : Buf α => (b.destroy p).bind
        fun b => (b.moveConstruct E.mv p np).bind (downLoop E.mv (p+1) (np+1) k)) := rfl
    rw [this, onLoc_bind, onLoc_bind l (fun b => b.moveConstruct E.mv p np)]
    exact late_then fun b t _ => late_n (late_bind (late_may _ _ _) fun b t _ => ih (p+1) (np+1) t) (Nat.add_comm _ _)

theorem shiftDownT_late (l : Loc) (p np myend : Nat) (s : St α) (hle : np ≤ myend) :
    Late (shiftDownT E tr l p np (myend - np)) (onLoc l fun b => b.shiftDown E.mv myend (b.cap + 1) p np) s (myend - np) := by
  refine late_congr (shiftDownT_late0 E tr l _ p np s) ?_
  simp only [onLoc, M.mem]
  cases s.buf l with
  | none => left; rfl
  | some b =>
    simp only [Option.bind_eq_bind, Option.bind_some]
    cases h : b.shiftDown E.mv myend (b.cap + 1) p np with
    | none => left; rfl
    | some b1 => right; rw [downLoop_of E.mv myend _ _ _ _ _ hle h]

theorem refitLoopT_late (old l : Loc) : ∀ (k p o : Nat) (s : St α), s.v.endp = l → s.v.endo = o →
    Late (refitLoopT E tr old p k) (onLoc2 old l (relocLoop E.mv p o k) >>= fun _ => setEnd l (o + k)) s k := by
  intro k
  induction k with
  | zero =>
    intro p o s h1 h2
    refine late_congr (late_pure () s) ?_
    rcases onLoc2_some (l := old) (l' := l) (s := s) with h | h
    · left
      simp only [M.bind_apply]
      have : relocLoop E.mv p o 0 = fun b c => some (b, c) := rfl
      rw [this, h]
    · right
      simp only [M.bind_apply]
      have : relocLoop E.mv p o 0 = fun b c => some (b, c) := rfl
      rw [this, h]
      simp only [M.pure_apply, setEnd, M.modify_apply, Nat.add_zero, ← h1, ← h2]
  | succ k ih =>
    intro p o s h1 h2
    have e : (onLoc2 old l (relocLoop E.mv p o (k+1)) >>= fun _ => setEnd l (o + (k+1))) =
        (onLoc2 old l (moveLoop E.mv p o 1) >>= fun _ => setEnd l (o+1) >>= fun _ => onLoc old (·.destroy p) >>= fun _ =>
          (onLoc2 old l (relocLoop E.mv (p+1) (o+1) k) >>= fun _ => setEnd l (o+1+k))) := by
      rw [relocLoop_on]
      have a1 := (apart_end (α := α) l (o+1)).onLoc old (fun b => b.destroy p)
      have a2 := (apart_end (α := α) l (o+1)).onLoc2 old l (relocLoop E.mv (p+1) (o+1) k)
      funext t
      simp only [M.bind_apply]
      cases onLoc2 old l (moveLoop E.mv p o 1) t with
      | throw => rfl
      | ub => rfl
      | ok b t1 =>
        simp only
        have a1' := congrFun a1 t1
        simp only [M.bind_apply, M.modify_apply] at a1'
        simp only [setEnd, M.modify_apply]
        rw [a1']
        cases onLoc old (fun b => b.destroy p) t1 with
        | throw => rfl
        | ub => rfl
        | ok b t2 =>
          simp only
          have a2' := congrFun a2 t2
          simp only [M.bind_apply, M.modify_apply] at a2'
          rw [a2']
          cases onLoc2 old l (relocLoop E.mv (p+1) (o+1) k) t2 with
          | throw => rfl
          | ub => rfl
          | ok b t3 => simp only [Nat.add_assoc, Nat.add_comm 1 k]
    rw [e]
    have hg (m : Option Nat) : refitLoopT E tr old p (k+1) ⟨s, m⟩ = (moveOneT E tr old l p o >>= fun _ =>
        lift (setEnd l (o+1)) >>= fun _ => lift (onLoc old (·.destroy p)) >>= fun _ => refitLoopT E tr old (p+1) k) ⟨s, m⟩ := by
      simp only [refitLoopT, M.bind_apply, lift, M.get_apply, h1, h2]
    intro m hm
    rw [hg]
    refine late_n (late_bind (late_may _ _ s) fun b t _ => late_then fun b t1 ht1 => late_then fun b t2 ht2 =>
      ih (p+1) (o+1) t2 ?_ ?_) (Nat.add_comm _ _) m hm
    all_goals
      simp only [setEnd, M.modify_apply, Res.ok.injEq, true_and] at ht1
      subst ht1
      simp only [onLoc, M.mem] at ht2
      split at ht2
      · rename_i u hu
        simp only [Option.bind_eq_bind, Option.bind_eq_some_iff, Option.some.injEq] at hu
        obtain ⟨b1, _, b2, _, rfl⟩ := hu
        simp only [Res.ok.injEq, true_and] at ht2
        subst ht2
        cases old <;> rfl
      · simp at ht2

/-! ### The functions -/

theorem allocate_v {n : Nat} {s t : St α} {l : Loc} (h : allocate n s = .ok l t) : t.v = s.v ∧ l = .dyn s.next := by
  simp only [allocate] at h
  split at h <;> simp only [Res.ok.injEq, reduceCtorEq] at h <;> (obtain ⟨rfl, rfl⟩ := h; exact ⟨rfl, rfl⟩)

theorem chooseData_v {P : Params} {d c : Nat} {s t : St α} {l : Loc} (h : chooseData P d s = .ok (l, c) t) : t.v = s.v := by
  simp only [chooseData, M.bind_apply, M.get_apply] at h
  repeat' split at h
  all_goals first
    | (simp only [M.pure_apply, Res.ok.injEq] at h; rw [← h.2])
    | (simp only [M.bind_apply, M.pure_apply] at h
       split at h
       · rename_i e; simp only [Res.ok.injEq] at h; rw [← h.2]; exact (allocate_v e).1
       · simp at h
       · simp at h)

theorem lift_get {f : St α → M (Mv (St α)) β} {g : St α → M (St α) β} {s : St α} {n : Nat} (h : Late (f s) (g s) s n) :
    Late (lift M.get >>= f) (M.get >>= g) s n :=
  late_then fun b t e => by
    simp only [M.get_apply, Res.ok.injEq] at e
    obtain ⟨rfl, rfl⟩ := e
    exact h

theorem growAtT_late (P : Params) (pos : Int) (num sz n : Nat) (s : St α) (hs : size s = .ok sz s)
    (h : ∀ l c t, 0 ≤ pos → pos ≤ sz → chooseData P (sz + num) s = .ok (l, c) t →
      n = if l = s.v.bgn then sz - pos.toNat else sz) : Late (growAtT P E tr pos num) (growAt P E pos num) s n := by
  refine late_then fun b t e => ?_
  rw [hs] at e
  simp only [Res.ok.injEq] at e
  obtain ⟨rfl, rfl⟩ := e
  split
  · exact late_raise _ _ _
  rename_i hp
  refine late_then fun b t e => ?_
  obtain ⟨l, c⟩ := b
  have hn := h l c t (by omega) (by omega) e
  have hv := chooseData_v e
  refine lift_get ?_
  rw [hv]
  split
  · rename_i hl
    rw [if_pos hl] at hn
    subst hn
    refine late_then fun b t _ => ?_
    exact late_end (shiftUpT_late E tr _ _ _ _ _) fun _ _ _ => late_pure _ _
  · rename_i hl
    rw [if_neg hl] at hn
    refine late_n (late_bind (moveLoopT_late E tr _ _ _ _ _ _) fun _ _ _ =>
      late_end (moveLoopT_late E tr _ _ _ _ _ _) fun _ _ _ => late_lift _ _) (by omega)

theorem shrinkAtT_late (P : Params) (pos : Int) (num sz n : Nat) (s : St α) (hs : size s = .ok sz s)
    (h0 : sz - num = 0 → 0 ≤ pos → pos + num ≤ sz → n = 0)
    (h : ∀ l c t, sz - num ≠ 0 → 0 ≤ pos → pos + num ≤ sz → chooseData P (sz - num) s = .ok (l, c) t →
      n = if l = s.v.bgn then sz - (pos.toNat + num) else sz - num) :
    Late (shrinkAtT P E tr pos num) (shrinkAt P E pos num) s n := by
  refine late_then fun b t e => ?_
  rw [hs] at e
  simp only [Res.ok.injEq] at e
  obtain ⟨rfl, rfl⟩ := e
  split
  · exact late_raise _ _ _
  rename_i hp
  dsimp only
  split
  · rename_i hz
    rw [h0 hz (by omega) (by omega)]
    exact late_lift _ _
  rename_i hz
  refine late_then fun b t e => ?_
  obtain ⟨l, c⟩ := b
  have hn := h l c t hz (by omega) (by omega) e
  have hv := chooseData_v e
  refine lift_get ?_
  rw [hv]
  dsimp only
  split
  · rename_i hl
    rw [if_pos hl] at hn
    subst hn
    exact late_end (shiftDownT_late E tr _ _ _ _ _ (by omega)) fun _ _ _ => late_lift _ _
  · rename_i hl
    rw [if_neg hl] at hn
    split
    · exact late_undef _ _ _
    refine late_n (late_bind (relocLoopT_late E tr _ _ _ _ _ _) fun _ _ _ => late_then fun _ _ _ =>
      late_end (relocLoopT_late E tr _ _ _ _ _ _) fun _ _ _ => late_lift _ _) (by omega)

theorem reserveT_late (P : Params) (d sz n : Nat) (s : St α) (hs : size s = .ok sz s) (h0 : d ≤ s.v.cap → n = 0)
    (h : ∀ l c t, ¬ d ≤ s.v.cap → chooseData P d s = .ok (l, c) t → n = sz) :
    Late (reserveT P E tr d) (reserve P E d) s n := by
  refine lift_get ?_
  split
  · rename_i hd
    rw [h0 hd]
    exact late_pure _ _
  rename_i hd
  refine late_then fun b t e => ?_
  obtain ⟨l, c⟩ := b
  have hn := h l c t hd e
  have hv := chooseData_v e
  dsimp only
  split
  · exact late_undef _ _ _
  refine late_then fun b u e => ?_
  have : b = sz := by
    simp only [size, M.bind_apply, M.get_apply] at hs e
    rw [hv] at e
    split at hs
    · rename_i hh
      rw [if_pos hh] at e
      simp only [M.pure_apply, Res.ok.injEq] at hs e
      rw [← hs.1, ← e.1]
    · simp at hs
  subst this
  subst hn
  exact late_end (moveLoopT_late E tr _ _ _ _ _ _) fun _ _ _ => late_lift _ _

/-- the two ways to write the second half of `shrink_to_fit` -/
theorem refit_late (old l : Loc) (sz c c0 : Nat) (s : St α) :
    Late (lift (setPtrs l 0 c) >>= fun _ => refitLoopT E tr old 0 sz >>= fun _ => lift (deallocate old c0) >>= fun _ =>
        (pure true : M (Mv (St α)) Bool))
      (onLoc2 old l (relocLoop E.mv 0 0 sz) >>= fun _ => setPtrs l sz c >>= fun _ => deallocate old c0 >>= fun _ => pure true)
      s sz := by
  have e : (onLoc2 old l (relocLoop E.mv 0 0 sz) >>= fun _ => setPtrs l sz c >>= fun _ => deallocate old c0 >>= fun _ =>
      (pure true : M (St α) Bool)) =
      (setPtrs l 0 c >>= fun _ => ((onLoc2 old l (relocLoop E.mv 0 0 sz) >>= fun _ => setEnd l (0 + sz)) >>= fun _ =>
        deallocate old c0 >>= fun _ => pure true)) := by
    have a := (apart_ptrs (α := α) l 0 c).onLoc2 old l (relocLoop E.mv 0 0 sz)
    funext t
    have a' := congrFun a t
    simp only [M.bind_apply, M.modify_apply] at a'
    simp only [M.bind_apply, setPtrs, M.modify_apply]
    rw [a']
    cases onLoc2 old l (relocLoop E.mv 0 0 sz) t with
    | throw => rfl
    | ub => rfl
    | ok b t1 => simp only [setEnd, M.modify_apply, Nat.zero_add]
  rw [e]
  refine late_then fun b t ht => ?_
  simp only [setPtrs, M.modify_apply, Res.ok.injEq, true_and] at ht
  subst ht
  exact late_end (refitLoopT_late E tr old l sz 0 0 _ rfl rfl) fun _ _ _ => late_then fun _ _ _ => late_pure _ _

theorem shrinkToFitT_late (P : Params) (sz n : Nat) (s : St α) (hs : size s = .ok sz s)
    (h0 : (sz = s.v.cap ∨ s.v.isStatic = true) → n = 0)
    (h : sz ≠ s.v.cap → s.v.isStatic = false → (sz < P.N ∨ ∃ l t, allocate sz s = .ok l t) → n = sz) :
    Late (shrinkToFitT P E tr) (shrinkToFit P E) s n := by
  refine late_then fun b t e => ?_
  rw [hs] at e
  simp only [Res.ok.injEq] at e
  obtain ⟨rfl, rfl⟩ := e
  refine lift_get ?_
  split
  · rename_i hc
    rw [h0 (Or.inl hc)]
    exact late_pure _ _
  rename_i hc
  split
  · rename_i hst
    rw [h0 (Or.inr hst)]
    exact late_pure _ _
  rename_i hst
  split
  · rename_i hN
    rw [h hc (by simpa using hst) (Or.inl hN)]
    exact refit_late E tr _ _ _ _ _ _
  · refine late_then fun l t e => ?_
    rw [h hc (by simpa using hst) (Or.inr ⟨l, t, e⟩)]
    exact refit_late E tr _ _ _ _ _ _

theorem revertToStaticT_late (P : Params) (sz n : Nat) (s : St α) (hs : size s = .ok sz s)
    (h1 : (s.v.isStatic = true ∨ P.N < sz) → n = 0)
    (h : Late (shrinkToFitT P E tr) (shrinkToFit P E) s n) :
    Late (revertToStaticT P E tr) (revertToStatic P E) s n := by
  refine late_then fun b t e => ?_
  rw [hs] at e
  simp only [Res.ok.injEq] at e
  obtain ⟨rfl, rfl⟩ := e
  refine lift_get ?_
  split
  · rename_i hst
    rw [h1 (Or.inl hst)]
    exact late_pure _ _
  split
  · rename_i hN
    rw [h1 (Or.inr hN)]
    exact late_pure _ _
  exact late_end h fun _ _ _ => late_pure _ _

theorem chooseData_bgn {C : Ctx α} {h : Home} {k nx d c : Nat} {xs : List α} {g : List (Buf α)} {l : Loc} {t : St α}
    (hw : WF C h k nx) (e : chooseData C.P d (st C h k xs nx g) = .ok (l, c) t) :
    l = (st C h k xs nx g).v.bgn ↔ ¬ moves C.P.N C.P.R d h := by
  by_cases hm : moves C.P.N C.P.R d h
  · simp only [hm, not_true, iff_false]
    simp only [chooseData, M.bind_apply, M.get_apply] at e
    cases h with
    | stat =>
      simp only [moves] at hm
      rw [if_pos (by simp [st]), if_pos hm] at e
      simp only [M.bind_apply, M.pure_apply] at e
      split at e
      · rename_i l' t' ea
        simp only [Res.ok.injEq, Prod.mk.injEq] at e
        rw [← e.1.1, (allocate_v ea).2]
        simp [st, loc]
      · simp at e
      · simp at e
    | dyn cc =>
      have := (hw.own cc rfl).1
      simp only [moves] at hm
      simp only [st, isStatic_stB, reduceCtorEq, decide_false, Bool.false_eq_true, if_false, stB_cap, Home.cap] at e
      split at e
      · simp only [M.bind_apply, M.pure_apply] at e
        split at e
        · rename_i l' t' ea
          simp only [Res.ok.injEq, Prod.mk.injEq] at e
          rw [← e.1.1, (allocate_v ea).2]
          simp only [st, stB_next, stB_bgn, loc, Loc.dyn.injEq]
          omega
        · simp at e
        · simp at e
      · rename_i hd
        rw [if_pos (by omega)] at e
        simp only [M.pure_apply, Res.ok.injEq, Prod.mk.injEq] at e
        rw [← e.1.1]
        simp [st, loc]
  · simp only [hm, not_false_iff, iff_true]
    rw [st, chooseData_stay hm] at e
    simp only [Res.ok.injEq, Prod.mk.injEq] at e
    rw [← e.1.1]
    simp [st]

/-- an allocation that fails -/
theorem chooseData_no {C : Ctx α} {h : Home} {k nx d c : Nat} {xs : List α} {g : List (Buf α)} {l : Loc} {t : St α}
    (ha : C.at' = some 0) (hc : h.cap C.P.N < d) : chooseData C.P d (st C h k xs nx g) ≠ .ok (l, c) t := by
  intro e
  have := chooseData_fail (C := C) (h := h) (k := k) (b := Buf.ofList (h.cap C.P.N) xs) (n := xs.length) (nx := nx) (g := g) ha hc
  rw [st, this] at e
  simp at e

/-- how many moves a call makes, if no allocation fails before -/
def Count (C : Ctx α) (op : Op α) (h : Home) (xs : List α) (n : Nat) : Prop :=
  n = vmoves C.P.N C.P.R op h xs.length ∨ (n = 0 ∧ C.at' = some 0 ∧ allocs C.P.N op h xs = true)

theorem grow_late {C : Ctx α} {h : Home} {k nx n : Nat} {xs : List α} {g : List (Buf α)} (hw : WF C h k nx) (pos : Int)
    (num : Nat) (hn : n = insMoves C.P.N C.P.R h xs.length pos num ∨ (n = 0 ∧ C.at' = some 0 ∧ h.cap C.P.N < xs.length + num)) :
    Late (growAtT C.P E tr pos num) (growAt C.P E pos num) (st C h k xs nx g) n := by
  refine growAtT_late E tr C.P pos num xs.length n _ (size_st ..) fun l c t h1 h2 e => ?_
  rcases hn with hn | ⟨_, ha, hc⟩
  · have hb := chooseData_bgn hw e
    rw [hn, insMoves, if_pos ⟨h1, h2⟩]
    by_cases hl : l = (st C h k xs nx g).v.bgn
    · rw [if_neg (hb.mp hl), if_pos hl]
    · rw [if_neg hl, if_pos (by by_contra hm; exact hl (hb.mpr hm))]
  · exact absurd e (chooseData_no ha hc)

theorem shrink_late {C : Ctx α} {h : Home} {k nx n : Nat} {xs : List α} {g : List (Buf α)} (hw : WF C h k nx)
    (first last : Int) (hle : first ≤ last) (hn : n = eraMoves C.P.N C.P.R h xs.length first last) :
    Late (shrinkAtT C.P E tr first (last - first).toNat) (shrinkAt C.P E first (last - first).toNat) (st C h k xs nx g) n := by
  refine shrinkAtT_late E tr C.P first _ xs.length n _ (size_st ..) (fun hz h1 h2 => ?_) fun l c t hz h1 h2 e => ?_
  · rw [hn, eraMoves, if_pos (by omega)]
    simp only [hz, if_true]
  · have hb := chooseData_bgn hw e
    rw [hn, eraMoves, if_pos (by omega)]
    simp only [hz, if_false]
    by_cases hl : l = (st C h k xs nx g).v.bgn
    · rw [if_neg (hb.mp hl), if_pos hl]
      omega
    · rw [if_neg hl, if_pos (by by_contra hm; exact hl (hb.mpr hm))]

theorem reserve_late {C : Ctx α} {h : Home} {k nx n d : Nat} {xs : List α} {g : List (Buf α)}
    (hn : n = (if h.cap C.P.N < d then xs.length else 0) ∨ (n = 0 ∧ C.at' = some 0 ∧ h.cap C.P.N < d)) :
    Late (reserveT C.P E tr d) (reserve C.P E d) (st C h k xs nx g) n := by
  refine reserveT_late E tr C.P d xs.length n _ (size_st ..) (fun hd => ?_) fun l c t hd e => ?_
  · simp only [st, stB_cap] at hd
    rcases hn with hn | hn
    · rw [hn, if_neg (by omega)]
    · exact hn.1
  · simp only [st, stB_cap] at hd
    rcases hn with hn | ⟨_, ha, hc⟩
    · rw [hn, if_pos (by omega)]
    · exact absurd e (chooseData_no ha hc)

theorem fit_late {C : Ctx α} {h : Home} {k nx n : Nat} {xs : List α} {g : List (Buf α)}
    (hn : n = (if h = .stat ∨ h = .dyn xs.length then 0 else xs.length) ∨
      (n = 0 ∧ C.at' = some 0 ∧ C.P.N < xs.length ∧ h ≠ .stat ∧ h ≠ .dyn xs.length)) :
    Late (shrinkToFitT C.P E tr) (shrinkToFit C.P E) (st C h k xs nx g) n := by
  refine shrinkToFitT_late E tr C.P xs.length n _ (size_st ..) (fun hd => ?_) fun h1 h2 h3 => ?_
  · rcases hn with hn | hn
    · rw [hn]
      cases h with
      | stat => simp
      | dyn c =>
        simp only [st, stB_cap, isStatic_stB, Home.cap, reduceCtorEq, decide_false, Bool.false_eq_true, or_false] at hd
        simp [hd]
    · exact hn.1
  · simp only [st, stB_cap, isStatic_stB, decide_eq_false_iff_not] at h1 h2
    rcases hn with hn | ⟨_, ha, hc, _, _⟩
    · rw [hn, if_neg]
      rintro (h4 | h4)
      · exact h2 h4
      · exact h1 (by simp [h4, Home.cap])
    · rcases h3 with h3 | ⟨l, t, e⟩
      · omega
      · simp [allocate, st, ha] at e

theorem late_arg {C : Ctx α} {h : Home} {k nx n : Nat} {xs : List α} {g : List (Buf α)} (v : Arg α)
    {f : Ref α → M (Mv (St α)) β} {g' : Ref α → M (St α) β} (hf : ∀ r, Late (f r) (g' r) (st C h k xs nx g) n) :
    Late (lift (bindRef v) >>= f) (bindRef v >>= g') (st C h k xs nx g) n := by
  refine late_then fun r t e => ?_
  have : t = st C h k xs nx g := by
    cases v <;> simp only [bindRef, M.bind_apply, M.get_apply, M.pure_apply, Res.ok.injEq] at e <;> exact e.2.symm
  subst this
  exact hf r

theorem late_size {C : Ctx α} {h : Home} {k nx n : Nat} {xs : List α} {g : List (Buf α)}
    {f : Nat → M (Mv (St α)) β} {g' : Nat → M (St α) β} (hf : Late (f xs.length) (g' xs.length) (st C h k xs nx g) n) :
    Late (lift size >>= f) (size >>= g') (st C h k xs nx g) n := by
  refine late_then fun r t e => ?_
  simp only [size_st, Res.ok.injEq] at e
  obtain ⟨rfl, rfl⟩ := e
  exact hf

theorem vop_late {C : Ctx α} {op : Op α} {h : Home} {k nx n : Nat} {xs : List α} {g : List (Buf α)} (hw : WF C h k nx)
    (hn : Count C op h xs n) : Late (vop C.P E tr op) (exec C.P E op) (st C h k xs nx g) n := by
  have ins {pos : Int} {num : Nat}
      (hn : n = insMoves C.P.N C.P.R h xs.length pos num ∨
        (n = 0 ∧ C.at' = some 0 ∧ (0 ≤ pos ∧ pos ≤ xs.length) ∧ h.cap C.P.N < xs.length + num)) :
      Late (growAtT C.P E tr pos num) (growAt C.P E pos num) (st C h k xs nx g) n :=
    grow_late E tr hw pos num (hn.imp_right fun ⟨a, b, _, c⟩ => ⟨a, b, c⟩)
  cases op with
  | pushBack v =>
    simp only [Count, vmoves, allocs, decide_eq_true_eq] at hn
    refine late_end ?_ fun _ _ _ => late_pure _ _
    refine late_arg v fun r => late_size ?_
    exact late_end (grow_late E tr hw _ 1 hn) fun b t _ => late_lift _ _
  | emplaceBack v =>
    simp only [Count, vmoves, allocs, decide_eq_true_eq] at hn
    refine late_end ?_ fun _ _ _ => late_pure _ _
    refine late_arg v fun r => late_size ?_
    exact late_end (grow_late E tr hw _ 1 hn) fun b t _ => late_lift _ _
  | insert pos v =>
    simp only [Count, vmoves, allocs, decide_eq_true_eq] at hn
    refine late_end ?_ fun _ _ _ => late_pure _ _
    refine late_arg v fun r => ?_
    exact late_end (ins hn) fun b t _ => late_lift _ _
  | insertN pos m v =>
    simp only [Count, vmoves, allocs, decide_eq_true_eq] at hn
    refine late_end ?_ fun _ _ _ => late_pure _ _
    refine late_arg v fun r => ?_
    exact late_end (ins hn) fun b t _ => late_lift _ _
  | insertRange pos ys =>
    simp only [Count, vmoves, allocs, decide_eq_true_eq] at hn
    refine late_end ?_ fun _ _ _ => late_pure _ _
    exact late_end (ins hn) fun b t _ => late_lift _ _
  | popBack =>
    simp only [Count, vmoves, allocs, Bool.false_eq_true, and_false, or_false] at hn
    refine late_end ?_ fun _ _ _ => late_pure _ _
    refine late_size ?_
    refine late_end ?_ fun _ _ _ => late_pure _ _
    have := shrink_late E tr (g := g) hw (xs.length - 1 : Int) xs.length (by omega) hn
    rwa [show ((xs.length : Int) - (xs.length - 1)).toNat = 1 by omega] at this
  | erase pos =>
    simp only [Count, vmoves, allocs, Bool.false_eq_true, and_false, or_false] at hn
    refine late_end ?_ fun _ _ _ => late_pure _ _
    have := shrink_late E tr (g := g) hw pos (pos + 1) (by omega) hn
    rwa [show (pos + 1 - pos).toNat = 1 by omega] at this
  | eraseRange first last =>
    simp only [Count, vmoves, allocs, Bool.false_eq_true, and_false, or_false] at hn
    refine late_end ?_ fun _ _ _ => late_pure _ _
    simp only [eraseRangeT, eraseRange]
    split
    · exact late_raise _ _ _
    · exact shrink_late E tr hw first last (by omega) hn
  | resize m =>
    simp only [Count, vmoves, allocs, decide_eq_true_eq] at hn
    refine late_end ?_ fun _ _ _ => late_pure _ _
    refine late_arg _ fun r => ?_
    exact late_end (reserve_late E tr hn) fun b t _ => late_lift _ _
  | resizeV m v =>
    simp only [Count, vmoves, allocs, decide_eq_true_eq] at hn
    refine late_end ?_ fun _ _ _ => late_pure _ _
    refine late_arg _ fun r => ?_
    exact late_end (reserve_late E tr hn) fun b t _ => late_lift _ _
  | reserve m =>
    simp only [Count, vmoves, allocs, decide_eq_true_eq] at hn
    exact late_end (reserve_late E tr hn) fun _ _ _ => late_pure _ _
  | shrinkToFit =>
    simp only [Count, vmoves, allocs, decide_eq_true_eq] at hn
    exact late_end (fit_late E tr hn) fun _ _ _ => late_pure _ _
  | revertToStatic =>
    simp only [Count, vmoves, allocs, Bool.false_eq_true, and_false, or_false] at hn
    refine late_end ?_ fun _ _ _ => late_pure _ _
    by_cases hr : h = .stat ∨ C.P.N < xs.length
    · have : n = 0 := by rw [hn, if_pos (by tauto)]
      subst this
      refine late_size ?_
      refine lift_get ?_
      rw [show (st C h k xs nx g).v.isStatic = decide (h = .stat) from isStatic_stB ..]
      by_cases h1 : h = .stat
      · simp only [h1, decide_true, if_true]
        exact late_pure _ _
      · simp only [h1, decide_false, Bool.false_eq_true, if_false, show xs.length > C.P.N by tauto, if_true]
        exact late_pure _ _
    · refine revertToStaticT_late E tr C.P xs.length n _ (size_st ..) (fun h1 => ?_) (fit_late E tr (Or.inl ?_))
      · exfalso
        apply hr
        rw [show (st C h k xs nx g).v.isStatic = decide (h = .stat) from isStatic_stB ..] at h1
        simpa using h1
      · rw [hn]
        congr 1
        simp only [eq_iff_iff]
        tauto
  | _ =>
    simp only [Count, vmoves] at hn
    have : n = 0 := by rcases hn with hn | hn <;> omega
    subst this
    simp only [vop]
    exact late_lift _ _

/-- in a program with several vectors -/
theorem late_at {f : M (Mv (St α)) β} {g : M (St α) β} {m : Mem α} {i n : Nat}
    (h : ∀ v, m.vec i = some v → Late f g (m.view v) n) : Late (at'T i f) (at' i g) m n := by
  intro t ht
  simp only [at'T, at']
  cases hv : m.vec i with
  | none => trivial
  | some v =>
    have := h v hv t ht
    simp only
    cases e : g (m.view v) with
    | ok b s => rw [e] at this; simp only [this]
    | throw x s => rw [e] at this; obtain ⟨m', h'⟩ := this; exact ⟨m', by simp only [h']⟩
    | ub => trivial

end Itlib.SmallVector
