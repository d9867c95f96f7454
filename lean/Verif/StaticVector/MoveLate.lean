import Verif.StaticVector.ThrowStep
import Verif.StaticVector.MoveModel

/-! # Moves that do not throw (proof engineering): the functions of MoveModel.lean are then those of Model.lean -/
namespace Itlib.StaticVector
open Itlib Spec
variable {α β γ : Type}

/-- `f` does what `g` does in the state `st` if the throw point is beyond `n` moves, and then makes `n` of them -/
def Late (f : M (MV α) β) (g : M (Store α) β) (st : Store α) (n : Nat) : Prop :=
  ∀ m, Enough m n →
    match g st with
    | .ok b st' => f ⟨st, m⟩ = .ok b ⟨st', spend m n⟩
    | .throw e st' => ∃ m', f ⟨st, m⟩ = .throw e ⟨st', m'⟩
    | .ub => f ⟨st, m⟩ = .ub

theorem late_lift (g : M (Store α) β) (st : Store α) : Late (lift g) g st 0 := by
  intro m _
  simp only [lift]
  cases g st <;> simp

theorem late_may (bad good : M (Store α) Unit) (st : Store α) : Late (mayThrow bad good) good st 1 := by
  intro m hm
  cases m with
  | none => simp only [mayThrow, lift]; cases good st <;> simp [spend]
  | some k =>
    cases k with
    | zero => simp [Enough] at hm
    | succ k => simp only [mayThrow, lift]; cases good st <;> simp [spend]

theorem late_pure (b : β) (st : Store α) : Late (pure b) (pure b) st 0 := by
  intro m _
  simp

theorem late_bind {f : M (MV α) β} {g : M (Store α) β} {f' : β → M (MV α) γ} {g' : β → M (Store α) γ} {st : Store α}
    {n n' : Nat} (h : Late f g st n) (h' : ∀ b st', g st = .ok b st' → Late (f' b) (g' b) st' n') :
    Late (f >>= f') (g >>= g') st (n + n') := by
  intro m hm
  obtain ⟨h1, h2⟩ := enough_add hm
  have := h m h1
  simp only [M.bind_apply]
  cases e : g st with
  | ok b st' =>
    rw [e] at this
    have h3 := h' b st' e _ h2
    simp only [this]
    cases e' : g' b st' with
    | ok c st'' => rw [e'] at h3; simp only [h3, spend_add]
    | throw x st'' => rw [e'] at h3; exact h3
    | ub => rw [e'] at h3; exact h3
  | throw x st' =>
    rw [e] at this
    obtain ⟨m', h3⟩ := this
    exact ⟨m', by simp only [h3]⟩
  | ub => rw [e] at this; simp only [this]

/-- code that does not move, first -/
theorem late_then {g : M (Store α) β} {f' : β → M (MV α) γ} {g' : β → M (Store α) γ} {st : Store α} {n' : Nat}
    (h' : ∀ b st', g st = .ok b st' → Late (f' b) (g' b) st' n') : Late (lift g >>= f') (g >>= g') st n' := by
  have := late_bind (late_lift g st) h'
  rwa [Nat.zero_add] at this

theorem late_congr {f : M (MV α) β} {g g' : M (Store α) β} {st : Store α} {n : Nat} (h : Late f g st n) (e : g st = g' st) :
    Late f g' st n := by
  intro m hm
  have := h m hm
  rwa [e] at this

theorem late_n {f : M (MV α) β} {g : M (Store α) β} {st : Store α} {n n' : Nat} (h : Late f g st n) (e : n = n') :
    Late f g st n' := e ▸ h

theorem at'_bind (i : Nat) (f : M (SV α) β) (g : β → M (SV α) γ) :
    at' i (f >>= g) = (at' i f >>= fun b => at' i (g b)) := by
  funext st
  simp only [at', M.bind_apply]
  cases st.vec i with
  | none => rfl
  | some v =>
    simp only
    cases f v with
    | ok b v' => simp only [put_vec_self]; cases g b v' <;> simp
    | throw e v' => rfl
    | ub => rfl

theorem at'_some {i : Nat} {f : M (SV α) β} {st st' : Store α} {b : β} (h : at' i f st = .ok b st') :
    (st'.vec i).isSome := by
  simp only [at'] at h
  cases hv : st.vec i with
  | none => simp [hv] at h
  | some v =>
    rw [hv] at h
    simp only at h
    cases hf : f v with
    | ok b' v' => rw [hf] at h; simp only [Res.ok.injEq] at h; rw [← h.2]; simp
    | throw e v' => rw [hf] at h; simp at h
    | ub => rw [hf] at h; simp at h

theorem at'_pure {i : Nat} {st : Store α} (h : (st.vec i).isSome) (b : β) : at' i (pure b) st = .ok b st := by
  obtain ⟨v, hv⟩ := Option.isSome_iff_exists.mp h
  exact at'_read hv rfl

theorem at'_undef (i : Nat) (st : Store α) : at' i (.undef : M (SV α) β) st = .ub := by
  simp only [at', M.undef_apply]
  cases st.vec i <;> rfl

theorem onBuf_bind (f g : Buf α → Option (Buf α)) :
    onBuf (fun b => (f b).bind g) = (onBuf f >>= fun _ => onBuf g) := by
  funext s
  simp only [onBuf, M.mem, M.bind_apply]
  cases f s.buf with
  | none => rfl
  | some b =>
    simp only [Option.bind_some, Option.map_some]

theorem onBuf_some : onBuf (fun b : Buf α => some b) = pure () := by
  funext s
  rfl

theorem late_pure_at {i : Nat} {st : Store α} (h : (st.vec i).isSome) (b : β) :
    Late (pure b) (at' i (pure b)) st 0 :=
  late_congr (late_pure b st) (at'_pure h b).symm

theorem late_undef_at (i : Nat) (st : Store α) (n : Nat) : Late (.undef : M (MV α) β) (at' i .undef) st n := by
  intro m _
  rw [at'_undef]
  rfl

theorem shiftUpT_late (E : Elem α) (T : Torn α) (i by_ pos : Nat) : ∀ (k : Nat) (st : Store α), (st.vec i).isSome →
    Late (shiftUpT E T i by_ pos k) (at' i (onBuf (Buf.shiftUp E.mv by_ pos k))) st k := by
  intro k
  induction k with
  | zero =>
    intro st h
    have : (Buf.shiftUp E.mv by_ pos 0) = (fun b : Buf α => some b) := rfl
    rw [this, onBuf_some]
    exact late_pure_at h ()
  | succ k ih =>
    intro st h
    have : Buf.shiftUp E.mv by_ pos (k+1) = (fun b : Buf α => (b.moveConstruct E.mv (pos + k + by_) (pos + k)).bind
        fun b => (b.destroy (pos + k)).bind (Buf.shiftUp E.mv by_ pos k)) := rfl
    rw [this, onBuf_bind, at'_bind]
    refine late_n (late_bind (n := 1) (n' := k) (late_may _ _ _) fun b st' _ => ?_) (Nat.add_comm _ _)
    rw [onBuf_bind, at'_bind]
    exact late_then fun b' st'' h' => ih st'' (at'_some h')

/-- the number of moves of `shiftDown` -/
theorem shiftDownT_late (E : Elem α) (T : Torn α) (i myend : Nat) : ∀ (f p np : Nat) (st : Store α), (st.vec i).isSome →
    np ≤ myend →
    Late (shiftDownT E T i myend f p np) (at' i (onBuf (Buf.shiftDown E.mv myend f p np))) st (myend - np) := by
  intro f
  induction f with
  | zero =>
    intro p np st h _ m _
    have : at' i (onBuf (Buf.shiftDown E.mv myend 0 p np)) st = .ub := by
      obtain ⟨v, hv⟩ := Option.isSome_iff_exists.mp h
      simp [at', hv, onBuf, M.mem, Buf.shiftDown]
    rw [this]
    rfl
  | succ f ih =>
    intro p np st h hn
    by_cases he : np = myend
    · have : Buf.shiftDown E.mv myend (f+1) p np = (fun b : Buf α => some b) := by
        funext b; simp [Buf.shiftDown, he]
      rw [this, onBuf_some, shiftDownT, if_pos he, he, Nat.sub_self]
      exact late_pure_at h ()
    · have : Buf.shiftDown E.mv myend (f+1) p np = (fun b : Buf α => (b.destroy p).bind
          fun b => (b.moveConstruct E.mv p np).bind (Buf.shiftDown E.mv myend f (p+1) (np+1))) := by
        funext b; simp [Buf.shiftDown, he]
      rw [this, onBuf_bind, at'_bind, shiftDownT, if_neg he]
      refine late_then fun b st' h' => ?_
      rw [onBuf_bind, at'_bind, show myend - np = 1 + (myend - (np+1)) by omega]
      refine late_bind (late_may _ _ _) fun b' st'' h'' => ?_
      exact ih _ _ st'' (at'_some h'') (by omega)

theorem at'_get {i : Nat} {st : Store α} {s : SV α} (h : st.vec i = some s) : at' i M.get st = .ok s st :=
  at'_read h rfl

/-- the number of moves of `grow_at` -/
theorem growAtT_late (E : Elem α) (T : Torn α) {i cp by_ : Nat} {st : Store α} {s : SV α} (h : st.vec i = some s) :
    Late (growAtT E T i cp by_) (at' i (growAt E cp by_)) st (if by_ = 0 then 0 else s.size - cp) := by
  unfold growAtT growAt
  rw [at'_bind]
  refine late_then fun b st' h1 => ?_
  rw [at'_get h] at h1
  simp only [Res.ok.injEq] at h1
  obtain ⟨rfl, rfl⟩ := h1
  rw [at'_bind]
  refine late_then fun b st' h1 => ?_
  have h2 := at'_some h1
  by_cases h3 : cp ≤ s.size
  · rw [if_pos h3, if_pos h3]
    by_cases h4 : by_ = 0
    · rw [if_pos h4, if_pos h4, if_pos h4]
      exact late_pure_at h2 _
    · rw [if_neg h4, if_neg h4, if_neg h4, at'_bind]
      refine late_bind (n' := 0) (shiftUpT_late E T i by_ cp _ st' h2) fun b' st'' h5 => ?_
      rw [at'_bind]
      exact late_then fun b'' st3 h6 => late_pure_at (at'_some h6) _
  · rw [if_neg h3, if_neg h3]
    exact late_undef_at _ _ _

/-- the number of moves of `shrink_at` -/
theorem shrinkAtT_late (E : Elem α) (T : Torn α) {i cp num : Nat} {st : Store α} {s : SV α} (h : st.vec i = some s)
    (hp : cp + num ≤ s.size) :
    Late (shrinkAtT E T i cp num) (at' i (shrinkAt E cp num)) st (s.size - (cp + num)) := by
  unfold shrinkAtT shrinkAt
  rw [at'_bind]
  refine late_then fun b st' h1 => ?_
  rw [at'_get h] at h1
  simp only [Res.ok.injEq] at h1
  obtain ⟨rfl, rfl⟩ := h1
  rw [at'_bind]
  refine late_then fun b st' h1 => ?_
  have h2 := at'_some h1
  rw [if_pos (show cp ≤ s.size by omega), if_pos (show cp ≤ s.size by omega)]
  by_cases h4 : s.size - num = 0
  · rw [if_pos h4, if_pos h4, at'_bind, show s.size - (cp + num) = 0 by omega]
    exact late_then fun b'' st3 h6 => late_pure_at (at'_some h6) _
  · rw [if_neg h4, if_neg h4, at'_bind]
    refine late_bind (n' := 0) (shiftDownT_late E T i s.size _ cp (cp + num) st' h2 hp) fun b' st'' h5 => ?_
    rw [at'_bind]
    refine late_then fun b'' st3 h6 => ?_
    rw [at'_bind]
    exact late_then fun b'' st3 h6 => late_pure_at (at'_some h6) _

theorem insertT_late (E : Elem α) (T : Torn α) {i pos : Nat} {v : Arg α} {st : Store α} {s : SV α} (h : st.vec i = some s) :
    Late (insertT E T i pos v) (at' i (insert E pos v)) st (s.size - pos) := by
  unfold insertT insert
  rw [at'_bind]
  refine late_bind (n' := 0) (growAtT_late E T h) fun b st' h1 => ?_
  have : ∀ (f : M (SV α) α) (g : α → M (SV α) Unit), (do let a ← f; g a; pure b) = ((f >>= g) >>= fun _ => pure b) := by
    intro f g
    funext s
    simp only [M.bind_apply]
    cases f s <;> rfl
  rw [this, at'_bind i (readArg v >>= emplaceAt b)]
  exact late_then fun b'' st3 h6 => late_pure_at (at'_some h6) _

theorem insertNT_late (E : Elem α) (T : Torn α) {i pos n : Nat} {v : Arg α} {st : Store α} {s : SV α} (h : st.vec i = some s) :
    Late (insertNT E T i pos n v) (at' i (insertN E pos n v)) st (if n = 0 then 0 else s.size - pos) := by
  unfold insertNT insertN
  rw [at'_bind]
  refine late_bind (n' := 0) (growAtT_late E T h) fun b st' h1 => ?_
  rw [at'_bind]
  exact late_then fun b'' st3 h6 => late_pure_at (at'_some h6) _

theorem insertRangeT_late (E : Elem α) (T : Torn α) {i pos : Nat} {xs : List α} {st : Store α} {s : SV α}
    (h : st.vec i = some s) :
    Late (insertRangeT E T i pos xs) (at' i (insertRange E pos xs)) st (if xs.length = 0 then 0 else s.size - pos) := by
  unfold insertRangeT insertRange
  rw [at'_bind]
  refine late_bind (n' := 0) (growAtT_late E T h) fun b st' h1 => ?_
  rw [at'_bind]
  exact late_then fun b'' st3 h6 => late_pure_at (at'_some h6) _

theorem emplaceMoveT_late (E : Elem α) (T : Torn α) (dst src k : Nat) (a : α) (st : Store α) :
    Late (emplaceMoveT E T dst src k a)
      (do let _ ← at' dst (emplaceBackMove a); at' src (onBuf fun b => b.assign k (E.mv a))) st 1 :=
  late_may _ _ _

theorem bind_assoc' {δ : Type} (f : M (Store α) β) (g : β → M (Store α) γ) (h : γ → M (Store α) δ) :
    (f >>= fun b => g b >>= h) = ((f >>= g) >>= h) := by
  funext s
  simp only [M.bind_apply]
  cases f s <;> rfl

theorem size_read {i : Nat} {st : Store α} {s : SV α} (h : st.vec i = some s) :
    at' i (do let s ← M.get; pure s.size) st = .ok s.size st := at'_read h rfl

theorem at'_other {i j : Nat} {f : M (SV α) β} {st st' : Store α} {b : β} (h : at' i f st = .ok b st') (hj : j ≠ i) :
    st'.vec j = st.vec j := by
  simp only [at'] at h
  cases hv : st.vec i with
  | none => simp [hv] at h
  | some v =>
    rw [hv] at h
    simp only at h
    cases hf : f v with
    | ok b' v' => rw [hf] at h; simp only [Res.ok.injEq] at h; rw [← h.2, put_vec_ne _ _ hj]
    | throw e v' => rw [hf] at h; simp at h
    | ub => rw [hf] at h; simp at h

theorem at'_onBuf {i : Nat} {f : Buf α → Option (Buf α)} {st st' : Store α} {s : SV α} (hv : st.vec i = some s)
    (h : at' i (onBuf f) st = .ok () st') : ∃ s', st'.vec i = some s' ∧ s'.size = s.size := by
  simp only [at', hv, onBuf, M.mem] at h
  cases hf : f s.buf with
  | none => simp [hf] at h
  | some b =>
    rw [hf] at h
    simp only [Option.map_some, Res.ok.injEq, true_and] at h
    exact ⟨⟨b, s.size, s.tick⟩, by rw [← h, put_vec_self], rfl⟩

theorem moveFromLoopT_late (E : Elem α) (T : Torn α) {dst src : Nat} (hne : dst ≠ src) : ∀ (f k : Nat) (st : Store α) (s : SV α),
    st.vec src = some s → k + f = s.size →
    Late (moveFromLoopT E T dst src k f) (moveFromLoop E dst src k f) st f := by
  intro f
  induction f with
  | zero =>
    intro k st s h hk
    unfold moveFromLoopT moveFromLoop
    refine late_then fun b st' h1 => ?_
    rw [size_read h] at h1
    simp only [Res.ok.injEq] at h1
    obtain ⟨rfl, rfl⟩ := h1
    rw [if_pos (by omega), if_pos (by omega)]
    exact late_pure _ _
  | succ f ih =>
    intro k st s h hk
    unfold moveFromLoopT moveFromLoop
    refine late_then fun b st' h1 => ?_
    rw [size_read h] at h1
    simp only [Res.ok.injEq] at h1
    obtain ⟨rfl, rfl⟩ := h1
    rw [if_neg (by omega), if_neg (by omega)]
    refine late_then fun a st1 h1 => ?_
    have hs1 : ∃ s1, st1.vec src = some s1 ∧ s1.size = s.size := by
      simp only [at', h, at_] at h1
      split at h1
      · rename_i h2
        split at h2
        · split at h2
          · simp only [Res.ok.injEq] at h1 h2
            exact ⟨s, by rw [← h1.2, ← h2.2, put_vec_self], rfl⟩
          · simp at h2
        · simp at h2
      · simp at h1
      · simp at h1
    obtain ⟨s1, hs1, he1⟩ := hs1
    rw [bind_assoc']
    refine late_n (late_bind (n := 1) (n' := f) (emplaceMoveT_late E T dst src k a st1) fun _ st2 h2 => ?_) (Nat.add_comm _ _)
    simp only [M.bind_apply] at h2
    cases h3 : at' dst (emplaceBackMove a) st1 with
    | ok b st3 =>
      rw [h3] at h2
      obtain ⟨s', h4, h5⟩ := at'_onBuf (by rw [at'_other h3 hne.symm]; exact hs1) h2
      exact ih (k+1) st2 s' h4 (by omega)
    | throw e st3 => rw [h3] at h2; simp at h2
    | ub => rw [h3] at h2; simp at h2

theorem swapElemT_late (E : Elem α) (T : Torn α) (x y k : Nat) (st : Store α) :
    Late (swapElemT E T x y k) (swapElem E x y k) st 3 := by
  unfold swapElemT swapElem
  refine late_then fun t st1 _ => ?_
  refine late_bind (n := 1) (n' := 2) (late_may _ _ _) fun _ st2 _ => ?_
  refine late_then fun q st3 _ => ?_
  rw [bind_assoc']
  exact late_bind (n := 1) (n' := 1) (late_may _ _ _) fun _ st4 _ => late_may _ _ _

theorem swapLoopT_late (E : Elem α) (T : Torn α) (x y : Nat) : ∀ (f k : Nat) (st : Store α),
    Late (swapLoopT E T x y k f) (swapLoop E x y k f) st (3 * f) := by
  intro f
  induction f with
  | zero => intro k st; exact late_pure () st
  | succ f ih =>
    intro k st
    rw [show 3 * (f + 1) = 3 + 3 * f by omega]
    exact late_bind (swapElemT_late E T x y k st) fun _ st' _ => ih (k+1) st'

theorem swapTailT_late (E : Elem α) (T : Torn α) (s l : Nat) : ∀ (f k : Nat) (st : Store α),
    Late (swapTailT E T s l k f) (swapTail E s l k f) st f := by
  intro f
  induction f with
  | zero => intro k st; exact late_pure () st
  | succ f ih =>
    intro k st
    unfold swapTailT swapTail
    refine late_then fun a st1 _ => ?_
    rw [bind_assoc']
    refine late_n (late_bind (n := 1) (n' := f) (emplaceMoveT_late E T s l k a st1) fun _ st2 _ => ?_) (Nat.add_comm _ _)
    exact late_then fun _ st3 _ => ih (k+1) st3

theorem swapT_late (E : Elem α) (T : Torn α) {x y : Nat} {st : Store α} {sx sy : SV α} (hx : st.vec x = some sx)
    (hy : st.vec y = some sy) :
    Late (swapT E T x y) (swap E x y) st
      (3 * min sx.size sy.size + (max sx.size sy.size - min sx.size sy.size)) := by
  unfold swapT swap
  refine late_then fun b st' h1 => ?_
  rw [size_read hx] at h1
  simp only [Res.ok.injEq] at h1
  obtain ⟨rfl, rfl⟩ := h1
  refine late_then fun b st' h1 => ?_
  rw [size_read hy] at h1
  simp only [Res.ok.injEq] at h1
  obtain ⟨rfl, rfl⟩ := h1
  have e1 : min sx.size sy.size = if sy.size > sx.size then sx.size else sy.size := by split <;> omega
  have e2 : max sx.size sy.size = if sy.size > sx.size then sy.size else sx.size := by split <;> omega
  rw [e2, e1]
  refine late_bind (swapLoopT_late E T _ _ _ _ _) fun _ st1 _ => ?_
  exact late_bind (n' := 0) (swapTailT_late E T _ _ _ _ _) fun _ st2 _ => late_lift _ _

end Itlib.StaticVector
