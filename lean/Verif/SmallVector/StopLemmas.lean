import Verif.SmallVector.ThrowLemmas

/-! # Calls left by an exception of an element (proof engineering) -/
namespace Itlib.SmallVector
open Itlib Spec
open Itlib.StaticVector (gap gapFill gap_eq gapFill_full)
variable {α β γ : Type}

/-- `f`, run in `s`, is left by the exception of the element that is constructed after `k` others, in state `t` -/
structure Stops (f : M (St α) β) (s : St α) (k na : Nat) (t : St α) : Prop where
  run : ∀ a, Enough a na → ∃ a', f (s.tk (some k) a) = .throw .element (t.tk (some 0) a')

theorem Stops.left {f : M (St α) β} {g : β → M (St α) γ} {s t : St α} {k na : Nat} (hf : Stops f s k na t) :
    Stops (f >>= g) s k na t := by
  refine ⟨fun a ha => ?_⟩
  obtain ⟨a', e⟩ := hf.run a ha
  exact ⟨a', by simp only [M.bind_apply, e]⟩

theorem Stops.right {f : M (St α) β} {g : β → M (St α) γ} {s t1 t : St α} {b : β} {k nc na na' : Nat} (hf : Frame f s nc na)
    (h1 : f s.er = .ok b t1) (hk : nc ≤ k) (hg : t1.er = t1 → Stops (g b) t1 (k - nc) na' t) :
    Stops (f >>= g) s k (na + na') t := by
  refine ⟨fun a ha => ?_⟩
  have ha := enough_add ha
  have h2 := hf.run (some k) a hk ha.1
  rw [h1] at h2
  obtain ⟨a', e⟩ := (hg h2.2).run _ ha.2
  exact ⟨a', by simp only [M.bind_apply, h2.1]; exact e⟩

theorem Stops.right0 {f : M (St α) β} {g : β → M (St α) γ} {s t1 t : St α} {b : β} {k na : Nat} (hf : Frame f s 0 0)
    (h1 : f s.er = .ok b t1) (hg : t1.er = t1 → Stops (g b) t1 k na t) : Stops (f >>= g) s k na t := by
  simpa using Stops.right hf h1 (Nat.zero_le _) hg

theorem Stops.get {g : St α → M (St α) γ} {s t : St α} {k na : Nat} (hc : ∀ c a, g (s.tk c a) = g s.er)
    (hg : Stops (g s.er) s k na t) : Stops (M.get >>= g) s k na t := by
  refine ⟨fun a ha => ?_⟩
  simp only [M.bind_apply, M.get_apply, hc]
  exact hg.run a ha

theorem emplaceAt_stops (l : Loc) (i : Nat) (x : α) (s : St α) : Stops (emplaceAt l i x) s 0 0 s :=
  ⟨fun a _ => ⟨a, rfl⟩⟩

theorem emplaceAt_stops' (l : Loc) (i : Nat) (x : α) (s : St α) : Stops (emplaceAt l i x) s 0 0 s.er :=
  ⟨fun a _ => ⟨a, rfl⟩⟩

theorem ok_er {f : M (St α) β} {s t : St α} {b : β} {nc na : Nat} (hf : Frame f s nc na) (h : f s.er = .ok b t) : t.er = t := by
  have := hf.run none none trivial trivial
  rw [h] at this
  exact this.2

theorem bind_ok {f : M (St α) β} {g : β → M (St α) γ} {s t : St α} {c : γ} (h : (f >>= g) s = .ok c t) :
    ∃ b s1, f s = .ok b s1 ∧ g b s1 = .ok c t := by
  simp only [M.bind_apply] at h
  cases e : f s with
  | ok b s1 => rw [e] at h; exact ⟨b, s1, rfl, h⟩
  | throw x s1 => rw [e] at h; simp at h
  | ub => rw [e] at h; simp at h

theorem fillAt_stops (r : Ref α) (l : Loc) : ∀ (k j p : Nat) (s t : St α), k < j → fillAt r l p k s.er = .ok () t →
    (∃ x, loadRef r t = .ok x t) → Stops (fillAt r l p j) s k 0 t := by
  intro k
  induction k with
  | zero =>
    intro j p s t hj h1 ⟨x, h2⟩
    obtain ⟨j, rfl⟩ : ∃ i, j = i + 1 := ⟨j - 1, by omega⟩
    simp only [fillAt, M.pure_apply, Res.ok.injEq, true_and] at h1
    subst h1
    exact Stops.right0 (loadRef_frame ..) h2 fun _ => Stops.left (emplaceAt_stops ..)
  | succ k ih =>
    intro j p s t hj h1 h2
    obtain ⟨j, rfl⟩ : ∃ i, j = i + 1 := ⟨j - 1, by omega⟩
    obtain ⟨x, s1, e1, e2⟩ := bind_ok h1
    obtain ⟨_, s2, e3, e4⟩ := bind_ok e2
    have h3 := ok_er (loadRef_frame ..) e1
    rw [← h3] at e3
    have h4 := ok_er (emplaceAt_frame ..) e3
    rw [← h4] at e4
    refine Stops.right0 (loadRef_frame ..) e1 fun _ => Stops.right (na' := 0) (emplaceAt_frame ..) e3 (by omega) fun _ => ?_
    exact ih j _ s2 t (by omega) e4 h2

theorem copyAt_stops (l : Loc) : ∀ (k p : Nat) (as : List α) (s t : St α), k < as.length →
    copyAt l p (as.take k) s.er = .ok () t → Stops (copyAt l p as) s k 0 t := by
  intro k
  induction k with
  | zero =>
    intro p as s t hj h1
    cases as with
    | nil => simp at hj
    | cons x as =>
      simp only [List.take_zero, copyAt, M.pure_apply, Res.ok.injEq, true_and] at h1
      subst h1
      exact Stops.left (emplaceAt_stops' ..)
  | succ k ih =>
    intro p as s t hj h1
    cases as with
    | nil => simp at hj
    | cons x as =>
      obtain ⟨_, s2, e3, e4⟩ := bind_ok h1
      have h4 := ok_er (emplaceAt_frame ..) e3
      rw [← h4] at e4
      refine Stops.right (na' := 0) (emplaceAt_frame ..) e3 (by omega) fun _ => ?_
      exact ih _ as s2 t (by simpa using hj) e4

/-- `m_end` one further -/
def St.more (s : St α) : St α := { s with v := { s.v with endo := s.v.endo + 1 } }

theorem pushLoop_stops (r : Ref α) : ∀ (k j : Nat) (s t : St α), k < j → pushLoop r k s.er = .ok () t →
    (∃ x, loadRef r t.more = .ok x t.more) → Stops (pushLoop r j) s k 0 t.more := by
  intro k
  induction k with
  | zero =>
    intro j s t hj h1 ⟨x, h2⟩
    obtain ⟨j, rfl⟩ : ∃ i, j = i + 1 := ⟨j - 1, by omega⟩
    simp only [pushLoop, M.pure_apply, Res.ok.injEq, true_and] at h1
    subst h1
    refine Stops.get (fun _ _ => rfl) (Stops.right0 (t1 := s.er.more) (setEnd_frame ..) rfl fun h => ?_)
    rw [← h] at h2
    exact Stops.right0 (loadRef_frame ..) h2 fun _ => by rw [h]; exact Stops.left (emplaceAt_stops ..)
  | succ k ih =>
    intro j s t hj h1 h2
    obtain ⟨j, rfl⟩ : ∃ i, j = i + 1 := ⟨j - 1, by omega⟩
    simp only [pushLoop, M.bind_apply, M.get_apply] at h1
    have e0 : setEnd s.er.v.endp (s.er.v.endo + 1) s.er = .ok () s.er.more := rfl
    rw [e0] at h1
    obtain ⟨x, s1, e1, e2⟩ := bind_ok h1
    obtain ⟨_, s2, e3, e4⟩ := bind_ok e2
    have h3 := ok_er (s := s.er.more) (loadRef_frame ..) e1
    rw [← h3] at e3
    have h4 := ok_er (emplaceAt_frame ..) e3
    rw [← h4] at e4
    refine Stops.get (fun _ _ => rfl) (Stops.right0 (setEnd_frame ..) e0 fun h => ?_)
    refine Stops.right0 (loadRef_frame ..) e1 fun _ => Stops.right (na' := 0) (emplaceAt_frame ..) e3 (by omega) fun _ => ?_
    exact ih j s2 t (by omega) e4 h2

theorem fillEnd_stops (r : Ref α) : ∀ (k j : Nat) (s t : St α), k < j → fillEnd r k s.er = .ok () t →
    (∃ x, loadRef r t = .ok x t) → Stops (fillEnd r j) s k 0 t := by
  intro k
  induction k with
  | zero =>
    intro j s t hj h1 ⟨x, h2⟩
    obtain ⟨j, rfl⟩ : ∃ i, j = i + 1 := ⟨j - 1, by omega⟩
    simp only [fillEnd, M.pure_apply, Res.ok.injEq, true_and] at h1
    subst h1
    exact Stops.get (fun _ _ => rfl) (Stops.right0 (loadRef_frame ..) h2 fun _ => Stops.left (emplaceAt_stops ..))
  | succ k ih =>
    intro j s t hj h1 h2
    obtain ⟨j, rfl⟩ : ∃ i, j = i + 1 := ⟨j - 1, by omega⟩
    obtain ⟨_, _, e0, h1⟩ := bind_ok h1
    simp only [M.get_apply, Res.ok.injEq] at e0
    obtain ⟨rfl, rfl⟩ := e0
    obtain ⟨x, s1, e1, e2⟩ := bind_ok h1
    obtain ⟨_, s2, e3, e4⟩ := bind_ok e2
    obtain ⟨_, s3, e5, e6⟩ := bind_ok e4
    have h3 := ok_er (loadRef_frame ..) e1
    rw [← h3] at e3
    have h4 := ok_er (emplaceAt_frame ..) e3
    rw [← h4] at e5
    have h5 := ok_er (setEnd_frame ..) e5
    rw [← h5] at e6
    refine Stops.get (fun _ _ => rfl) (Stops.right0 (loadRef_frame ..) e1 fun _ => Stops.right (na' := 0) (emplaceAt_frame ..) e3
      (by omega) fun _ => Stops.right0 (setEnd_frame ..) e5 fun _ => ?_)
    exact ih j s3 t (by omega) e6 h2

theorem copyEnd_stops : ∀ (k : Nat) (as : List α) (s t : St α), k < as.length →
    copyEnd (as.take k) s.er = .ok () t → Stops (copyEnd as) s k 0 t := by
  intro k
  induction k with
  | zero =>
    intro as s t hj h1
    cases as with
    | nil => simp at hj
    | cons x as =>
      simp only [List.take_zero, copyEnd, M.pure_apply, Res.ok.injEq, true_and] at h1
      subst h1
      exact Stops.get (fun _ _ => rfl) (Stops.left (emplaceAt_stops' ..))
  | succ k ih =>
    intro as s t hj h1
    cases as with
    | nil => simp at hj
    | cons x as =>
      obtain ⟨_, _, e0, h1⟩ := bind_ok h1
      simp only [M.get_apply, Res.ok.injEq] at e0
      obtain ⟨rfl, rfl⟩ := e0
      obtain ⟨_, s2, e3, e4⟩ := bind_ok h1
      have h4 := ok_er (emplaceAt_frame ..) e3
      rw [← h4] at e4
      obtain ⟨_, s3, e5, e6⟩ := bind_ok e4
      have h5 := ok_er (setEnd_frame ..) e5
      rw [← h5] at e6
      refine Stops.get (fun _ _ => rfl) (Stops.right (na' := 0) (emplaceAt_frame ..) e3
        (by omega) fun _ => Stops.right0 (setEnd_frame ..) e5 fun _ => ?_)
      exact ih as s3 t (by simpa using hj) e6

/-! ### The member functions -/

variable {C : Ctx α} {h h' : Home} {k k' : Nat} {b : Buf α} {n nx : Nat} {g : List (Buf α)} {xs : List α}

/-- the destructor meets a slot without object -/
theorem dead_stB {q : Nat} (hq : q < n) (hr : b.cells q = .raw) : dtorBody (stB C h k b n nx g) = .ub := by
  simp only [dtorBody, M.bind_apply, destroyAll, size_stB, M.get_apply, stB_bgn]
  rw [onLoc_stB_none]
  exact destroyRange_dead _ _ q _ (by omega) (by omega) hr

/-- the destructor meets pointers to different buffers -/
theorem dead_stB2 {e : Loc} {c : Buf α} (hd : loc C.i k h ≠ e) : dtorBody (stB2 C h k b e n h' k' c nx g) = .ub := by
  simp only [dtorBody, M.bind_apply, destroyAll, size, M.get_apply, stB2_bgn, stB2_endp, Ne.symm hd, if_false, M.undef_apply]

theorem gapFill_raw {cap pos m : Nat} {ys : List α} (hy : ys.length < m) :
    (gapFill cap xs pos m ys).cells (pos + ys.length) = .raw := by
  simp only [gapFill]
  rw [if_neg (by omega), if_pos (by omega)]
  simp

/-- the vector is beyond rescue: its destructor is undefined -/
def Dead (t : St α) : Prop := dtorBody t.er = .ub

theorem grow_stops (E : Elem α) (hG : Good C h k xs nx g) (hT : NoThrow C) {pos num : Nat} {zs : List α}
    (hp : pos ≤ xs.length) (hj : zs.length < num) {f : Loc × Nat → M (St α) β}
    (hf : ∀ k' nx' g', (¬ moves C.P.N C.P.R (xs.length + num) h → k' = k) →
      xs.length + num ≤ (choose C.P.N C.P.R (xs.length + num) h).cap C.P.N →
      Stops (f (loc C.i k' (choose C.P.N C.P.R (xs.length + num) h), pos))
        (stB C (choose C.P.N C.P.R (xs.length + num) h) k'
          (gapFill ((choose C.P.N C.P.R (xs.length + num) h).cap C.P.N) xs pos num []) (xs.length + num) nx' g') zs.length 0
        (stB C (choose C.P.N C.P.R (xs.length + num) h) k'
          (gapFill ((choose C.P.N C.P.R (xs.length + num) h).cap C.P.N) xs pos num zs) (xs.length + num) nx' g')) :
    ∃ t, Stops (growAt C.P E pos num >>= f) (st C h k xs nx g) zs.length (if h.cap C.P.N < xs.length + num then 1 else 0) t ∧
      Dead t := by
  obtain ⟨k', nx', g', h1, h2, h3, h4⟩ := growAt_st E (num := num) hG.N hG.R hT.2 hG.wf hG.raw hp (by omega) hG.len
  have hge := choose_ge (d := xs.length + num) hG.N hG.R hG.wf
  refine ⟨stB C (choose C.P.N C.P.R (xs.length + num) h) k'
    (gapFill ((choose C.P.N C.P.R (xs.length + num) h).cap C.P.N) xs pos num zs) (xs.length + num) nx' g', ?_, ?_⟩
  · have h5 := growAt_frame (xs := xs) (k := k) (h := h) (nx := nx) (g := g) E hT (pos := pos) (num := num)
    have e1 : (if (0 ≤ (pos : Int) ∧ (pos : Int) ≤ xs.length) ∧ h.cap C.P.N < xs.length + num then 1 else 0) =
        (if h.cap C.P.N < xs.length + num then 1 else 0) := by
      have : 0 ≤ (pos : Int) ∧ (pos : Int) ≤ xs.length := by omega
      simp only [this, and_self, true_and]
    rw [e1] at h5
    rw [gap_eq] at h1
    refine Stops.right (na' := 0) h5 (by rw [er_st hT]; exact h1) (Nat.zero_le _) fun _ => ?_
    exact hf k' nx' g' h4 hge
  · exact dead_stB (C := { C with ct := none, at' := none }) (q := pos + zs.length) (by omega) (gapFill_raw hj)

theorem loadArg_gap (hT : NoThrow C) {d m pos : Nat} {v : Arg α} {a : α} {ys : List α} {nx' : Nat} {g' : List (Buf α)}
    (hv : argVal xs v = some a) (hs : Stable C.P.N C.P.R d h pos v)
    (hk : ¬ moves C.P.N C.P.R d h → k' = k) (hp : pos ≤ xs.length) (hc : xs.length ≤ (choose C.P.N C.P.R d h).cap C.P.N) :
    loadRef (refOf C h k v)
        (stB C (choose C.P.N C.P.R d h) k' (gapFill ((choose C.P.N C.P.R d h).cap C.P.N) xs pos n ys) m nx' g').er =
      .ok a (stB C (choose C.P.N C.P.R d h) k' (gapFill ((choose C.P.N C.P.R d h).cap C.P.N) xs pos n ys) m nx' g') := by
  rw [er_stB hT]
  exact loadRef_gap hv hs hk hp hc

theorem insert_stops (E : Elem α) (hG : Good C h k xs nx g) (hT : NoThrow C) {pos : Nat} {v : Arg α} {a : α}
    (hv : argVal xs v = some a) (hs : Stable C.P.N C.P.R (xs.length + 1) h pos v) (hp : pos ≤ xs.length) :
    ∃ t, Stops (insert C.P E pos v) (st C h k xs nx g) 0 (if h.cap C.P.N < xs.length + 1 then 1 else 0) t ∧ Dead t := by
  obtain ⟨t, h1, h2⟩ := grow_stops E hG hT (zs := []) (num := 1) hp (by simp)
    (f := fun (l, p) => do
        let a ← loadRef (refOf C h k v)
        emplaceAt l p a
        pure p) (by
      intro k' nx' g' hk hge
      exact Stops.right0 (loadRef_frame ..) (loadArg_gap hT hv hs hk hp (by omega)) fun _ => Stops.left (emplaceAt_stops ..))
  exact ⟨t, Stops.right0 (bindRef_frame ..) (by rw [er_st hT, bindRef_st]) fun _ => h1, h2⟩

theorem pushBack_stops (E : Elem α) (hG : Good C h k xs nx g) (hT : NoThrow C) {v : Arg α} {a : α}
    (hv : argVal xs v = some a) (hs : Stable C.P.N C.P.R (xs.length + 1) h xs.length v) :
    ∃ t, Stops (pushBack C.P E v) (st C h k xs nx g) 0 (if h.cap C.P.N < xs.length + 1 then 1 else 0) t ∧ Dead t := by
  obtain ⟨t, h1, h2⟩ := grow_stops E hG hT (zs := []) (num := 1) (Nat.le_refl _) (by simp)
    (f := fun (l, p) => do
        let a ← loadRef (refOf C h k v)
        emplaceAt l p a) (by
      intro k' nx' g' hk hge
      exact Stops.right0 (loadRef_frame ..) (loadArg_gap hT hv hs hk (Nat.le_refl _) (by omega)) fun _ => emplaceAt_stops ..)
  exact ⟨t, Stops.right0 (bindRef_frame ..) (by rw [er_st hT, bindRef_st]) fun _ =>
    Stops.right0 (size_frame ..) (by rw [er_st hT, size_st]) fun _ => h1, h2⟩

theorem emplaceBack_stops (E : Elem α) (hG : Good C h k xs nx g) (hT : NoThrow C) {v : Arg α} {a : α}
    (hv : argVal xs v = some a) (hs : Stable C.P.N C.P.R (xs.length + 1) h xs.length v) :
    ∃ t, Stops (emplaceBack C.P E v) (st C h k xs nx g) 0 (if h.cap C.P.N < xs.length + 1 then 1 else 0) t ∧ Dead t := by
  obtain ⟨t, h1, h2⟩ := grow_stops E hG hT (zs := []) (num := 1) (Nat.le_refl _) (by simp)
    (f := fun (l, p) => do
        let a ← loadRef (refOf C h k v)
        emplaceAt l p a
        pure p) (by
      intro k' nx' g' hk hge
      exact Stops.right0 (loadRef_frame ..) (loadArg_gap hT hv hs hk (Nat.le_refl _) (by omega)) fun _ =>
        Stops.left (emplaceAt_stops ..))
  exact ⟨t, Stops.right0 (bindRef_frame ..) (by rw [er_st hT, bindRef_st]) fun _ =>
    Stops.right0 (size_frame ..) (by rw [er_st hT, size_st]) fun _ => h1, h2⟩

theorem insertN_stops (E : Elem α) (hG : Good C h k xs nx g) (hT : NoThrow C) {pos d j : Nat} {v : Arg α} {a : α}
    (hv : argVal xs v = some a) (hs : Stable C.P.N C.P.R (xs.length + d) h pos v) (hp : pos ≤ xs.length) (hj : j < d) :
    ∃ t, Stops (insertN C.P E pos d v) (st C h k xs nx g) j (if h.cap C.P.N < xs.length + d then 1 else 0) t ∧ Dead t := by
  obtain ⟨t, h1, h2⟩ := grow_stops E hG hT (zs := List.replicate j a) (num := d) hp (by simpa using hj)
    (f := fun (l, p) => do
        fillAt (refOf C h k v) l p d
        pure p) (by
      intro k' nx' g' hk hge
      rw [List.length_replicate]
      refine Stops.left (fillAt_stops _ _ j d _ _ _ hj ?_ ⟨a, loadRef_gap hv hs hk hp (by omega)⟩)
      rw [er_stB hT]
      have := fillAt_gap (a := a) (N := d) (m := xs.length + d) (nx' := nx') (g' := g') (v := v) (d := d) hT.1 hge hp
        (fun ys => loadRef_gap (n := d) (ys := ys) (m := xs.length + d) (nx' := nx') (g' := g') hv hs hk hp (by omega)) j [] (by simp; omega)
      simpa using this)
  rw [List.length_replicate] at h1
  exact ⟨t, Stops.right0 (bindRef_frame ..) (by rw [er_st hT, bindRef_st]) fun _ => h1, h2⟩

theorem insertRange_stops (E : Elem α) (hG : Good C h k xs nx g) (hT : NoThrow C) {pos j : Nat} {ys : List α}
    (hp : pos ≤ xs.length) (hj : j < ys.length) :
    ∃ t, Stops (insertRange C.P E pos ys) (st C h k xs nx g) j (if h.cap C.P.N < xs.length + ys.length then 1 else 0) t ∧
      Dead t := by
  have e : (ys.take j).length = j := by simp; omega
  obtain ⟨t, h1, h2⟩ := grow_stops E hG hT (zs := ys.take j) (num := ys.length) hp (by omega)
    (f := fun (l, p) => do
        copyAt l p ys
        pure p) (by
      intro k' nx' g' hk hge
      rw [e]
      refine Stops.left (copyAt_stops _ j _ ys _ _ hj ?_)
      rw [er_stB hT]
      have := copyAt_gap (k' := k') (N := ys.length) (m := xs.length + ys.length) (nx' := nx') (g' := g') hT.1 hge hp (ys.take j) [] (by
        simp only [List.length_nil]; omega)
      simpa using this)
  rw [e] at h1
  exact ⟨t, h1, h2⟩

theorem resizeV_stops (E : Elem α) (hG : Good C h k xs nx g) (hT : NoThrow C) {d j : Nat} {v : Arg α} {a : α}
    (hv : argVal xs v = some a) (hs : d ≤ h.cap C.P.N ∨ ∃ a, v = .val a) (hj : j < d - xs.length) :
    ∃ t, Stops (resizeV C.P E d v) (st C h k xs nx g) j (if h.cap C.P.N < d then 1 else 0) t ∧ Dead t := by
  obtain ⟨k', nx', g', h1, h2, h3⟩ := reserve_st E (d := d) hG hT.2
  have hge : d ≤ (reserved C.P.N C.P.R d h).cap C.P.N := by
    by_cases hd : d ≤ h.cap C.P.N
    · simpa [reserved, hd] using hd
    · simpa [reserved, hd] using choose_ge (d := d) hG.N hG.R hG.wf
  have hr : ∀ ys m, loadRef (refOf C h k v)
      (stB C (reserved C.P.N C.P.R d h) k' (Buf.ofList ((reserved C.P.N C.P.R d h).cap C.P.N) (xs ++ ys)) m nx' g') =
      .ok a (stB C (reserved C.P.N C.P.R d h) k' (Buf.ofList ((reserved C.P.N C.P.R d h).cap C.P.N) (xs ++ ys)) m nx' g') := by
    intro ys m
    cases v with
    | val x => simp only [argVal, Option.some.injEq] at hv; subst hv; rfl
    | self i =>
      obtain ⟨hi, rfl⟩ := List.getElem?_eq_some_iff.mp hv
      have hd : d ≤ h.cap C.P.N := by simpa using hs
      have e2 : reserved C.P.N C.P.R d h = h := by simp [reserved, hd]
      rw [e2, h3 hd]
      have hlen := hG.len
      refine loadRef_stB ?_
      simp [Buf.read, Buf.ofList, show i < h.cap C.P.N by omega, List.getElem?_append_left hi, List.getElem?_eq_getElem hi]
  refine ⟨stB C (reserved C.P.N C.P.R d h) k'
      (Buf.ofList ((reserved C.P.N C.P.R d h).cap C.P.N) (xs ++ List.replicate j a)) (xs.length + j + 1) nx' g',
    Stops.right0 (bindRef_frame ..) (by rw [er_st hT, bindRef_st]) fun _ => ?_, ?_⟩
  · refine Stops.right (na' := 0) (reserve_frame E) (by rw [er_st hT, h1]) (Nat.zero_le _) fun _ => ?_
    refine Stops.right0 (size_frame _) (by rw [er_st hT, size_st]) fun _ => ?_
    rw [show xs.length - d = 0 by omega]
    refine Stops.right0 (b := ()) (popLoop_frame ..) rfl fun _ => ?_
    rw [er_st hT]
    have h5 := pushLoop_st (C := C) (h := reserved C.P.N C.P.R d h) (k := k') (nx := nx') (g := g') j xs hT.1 (by omega) hr
    have h6 := pushLoop_stops (refOf C h k v) j (d - xs.length) (st C (reserved C.P.N C.P.R d h) k' xs nx' g')
      (st C (reserved C.P.N C.P.R d h) k' (xs ++ List.replicate j a) nx' g') hj
      (by rw [er_st hT]; exact h5) ⟨a, hr (List.replicate j a) _⟩
    simpa [St.more, st, stB] using h6
  · refine dead_stB (C := { C with ct := none, at' := none }) (q := xs.length + j) (by omega) ?_
    exact Buf.ofList_raw (by simp)

theorem assignFill_stops (hG : Good C h k [] nx g) (hT : NoThrow C) {d j : Nat} {r : Ref α} {a : α}
    (hr : ∀ s : St α, loadRef r s = .ok a s) (hj : j < d) :
    ∃ t, Stops (assignFill C.P d r) (stB C h k (Buf.fresh (h.cap C.P.N)) n nx g) j (if h.cap C.P.N < d then 1 else 0) t ∧
      (if moves C.P.N C.P.R d h then Dead t else t = st C h k (List.replicate j a) nx g) := by
  have hge := choose_ge (d := d) hG.N hG.R hG.wf
  have h0 := chooseData_frame (stB C h k (Buf.fresh (h.cap C.P.N)) n nx g) C.P d
  have e1 : (if Needs' C.P d (stB C h k (Buf.fresh (h.cap C.P.N)) n nx g) then 1 else 0) = (if h.cap C.P.N < d then 1 else 0) := by
    simp only [needs_stB]
  rw [e1] at h0
  by_cases hm : moves C.P.N C.P.R d h
  · obtain ⟨k', nx', hch, hdl, hw', hw2⟩ := chooseData_move (b := Buf.fresh (h.cap C.P.N)) (n := n) (g := g)
      hG.N hT.2 hG.wf hm
    generalize choose C.P.N C.P.R d h = h' at *
    refine ⟨stB2 C h k (Buf.fresh (h.cap C.P.N)) (loc C.i k' h') j h' k' (Buf.ofList (h'.cap C.P.N) (List.replicate j a)) nx' g,
      ?_, ?_⟩
    · refine Stops.right (na' := 0) h0 (by rw [er_stB hT]; exact hch) (Nat.zero_le _) fun _ => ?_
      refine Stops.right0 (b := ()) (setEnd_frame ..) rfl fun _ => Stops.left ?_
      refine fillEnd_stops r j d _ _ hj ?_ ⟨a, hr _⟩
      have := fillEnd_stB2 (h := h) (k := k) (b := Buf.fresh (h.cap C.P.N)) (k' := k') (h' := h') (nx := nx') (g := g) hr hT.1 j [] (by
        simp only [List.length_nil]; omega)
      simp only [List.length_nil, Nat.zero_add, List.nil_append, Buf.ofList_nil] at this
      rw [← this]
      simp only [St.er, St.tk, stB2, hT.1, hT.2]
    · rw [if_pos hm]
      exact dead_stB2 (C := { C with ct := none, at' := none }) hdl
  · rw [choose_stay hm] at hge
    refine ⟨st C h k (List.replicate j a) nx g, ?_, by rw [if_neg hm]⟩
    refine Stops.right (na' := 0) h0 (by rw [er_stB hT]; exact chooseData_stay hm) (Nat.zero_le _) fun _ => ?_
    refine Stops.right0 (b := ()) (setEnd_frame ..) rfl fun _ => Stops.left ?_
    refine fillEnd_stops r j d _ _ hj ?_ ⟨a, hr _⟩
    have := fillEnd_stB (C := C) (h := h) (k := k) (nx := nx) (g := g) hr hT.1 j [] (by
      simp only [List.length_nil]; omega)
    simp only [List.length_nil, Nat.zero_add, List.nil_append, Buf.ofList_nil] at this
    rw [st, List.length_replicate, ← this]
    simp only [St.er, St.tk, stB, hT.1, hT.2]

theorem assignCopy_stops (hG : Good C h k [] nx g) (hT : NoThrow C) {j : Nat} {ys : List α} (hj : j < ys.length) :
    ∃ t, Stops (assignCopy C.P ys) (stB C h k (Buf.fresh (h.cap C.P.N)) n nx g) j (if h.cap C.P.N < ys.length then 1 else 0) t ∧
      (if moves C.P.N C.P.R ys.length h then Dead t else t = st C h k (ys.take j) nx g) := by
  have hge := choose_ge (d := ys.length) hG.N hG.R hG.wf
  have e0 : (ys.take j).length = j := by simp; omega
  have h0 := chooseData_frame (stB C h k (Buf.fresh (h.cap C.P.N)) n nx g) C.P ys.length
  have e1 : (if Needs' C.P ys.length (stB C h k (Buf.fresh (h.cap C.P.N)) n nx g) then 1 else 0) =
      (if h.cap C.P.N < ys.length then 1 else 0) := by
    simp only [needs_stB]
  rw [e1] at h0
  by_cases hm : moves C.P.N C.P.R ys.length h
  · obtain ⟨k', nx', hch, hdl, hw', hw2⟩ := chooseData_move (b := Buf.fresh (h.cap C.P.N)) (n := n) (g := g)
      hG.N hT.2 hG.wf hm
    generalize choose C.P.N C.P.R ys.length h = h' at *
    refine ⟨stB2 C h k (Buf.fresh (h.cap C.P.N)) (loc C.i k' h') j h' k' (Buf.ofList (h'.cap C.P.N) (ys.take j)) nx' g,
      ?_, ?_⟩
    · refine Stops.right (na' := 0) h0 (by rw [er_stB hT]; exact hch) (Nat.zero_le _) fun _ => ?_
      refine Stops.right0 (b := ()) (setEnd_frame ..) rfl fun _ => Stops.left ?_
      refine copyEnd_stops j ys _ _ hj ?_
      have := copyEnd_stB2 (h := h) (k := k) (b := Buf.fresh (h.cap C.P.N)) (k' := k') (h' := h') (nx := nx') (g := g) hT.1
        (ys.take j) [] (by simp only [List.length_nil]; omega)
      simp only [List.length_nil, Nat.zero_add, List.nil_append, Buf.ofList_nil, e0] at this
      rw [← this]
      simp only [St.er, St.tk, stB2, hT.1, hT.2]
    · rw [if_pos hm]
      exact dead_stB2 (C := { C with ct := none, at' := none }) hdl
  · rw [choose_stay hm] at hge
    refine ⟨st C h k (ys.take j) nx g, ?_, by rw [if_neg hm]⟩
    refine Stops.right (na' := 0) h0 (by rw [er_stB hT]; exact chooseData_stay hm) (Nat.zero_le _) fun _ => ?_
    refine Stops.right0 (b := ()) (setEnd_frame ..) rfl fun _ => Stops.left ?_
    refine copyEnd_stops j ys _ _ hj ?_
    have := copyEnd_stB (C := C) (h := h) (k := k) (nx := nx) (g := g) hT.1 (ys.take j) [] (by
      simp only [List.length_nil]; omega)
    simp only [List.length_nil, Nat.zero_add, List.nil_append, Buf.ofList_nil, e0] at this
    rw [st, e0, ← this]
    simp only [St.er, St.tk, stB, hT.1, hT.2]

theorem assignN_stops (hG : Good C h k xs nx g) (hT : NoThrow C) {d j : Nat} {v : Arg α} {a : α}
    (hv : argVal xs v = some a) (hs : d = 0 ∨ ∃ a, v = .val a) (hj : j < d) :
    ∃ t, Stops (assignN C.P d v) (st C h k xs nx g) j (if h.cap C.P.N < d then 1 else 0) t ∧
      (if moves C.P.N C.P.R d h then Dead t else t = st C h k (List.replicate j a) nx g) := by
  obtain ⟨x, rfl⟩ : ∃ a, v = .val a := hs.resolve_left (by omega)
  simp only [argVal, Option.some.injEq] at hv
  subst hv
  obtain ⟨t, h1, h2⟩ := assignFill_stops (n := xs.length) (good_nil hG) hT (r := .val x) (a := x) (fun _ => rfl) hj
  refine ⟨t, Stops.right0 (bindRef_frame ..) (by rw [er_st hT, bindRef_st]) fun _ => ?_, h2⟩
  exact Stops.right0 (destroyAll_frame _) (by rw [er_st hT]; exact destroyAll_st hG.len) fun _ => h1

theorem assignRange_stops (hG : Good C h k xs nx g) (hT : NoThrow C) {j : Nat} {ys : List α} (hj : j < ys.length) :
    ∃ t, Stops (assignRange C.P ys) (st C h k xs nx g) j (if h.cap C.P.N < ys.length then 1 else 0) t ∧
      (if moves C.P.N C.P.R ys.length h then Dead t else t = st C h k (ys.take j) nx g) := by
  obtain ⟨t, h1, h2⟩ := assignCopy_stops (n := xs.length) (good_nil hG) hT hj
  exact ⟨t, Stops.right0 (destroyAll_frame _) (by rw [er_st hT]; exact destroyAll_st hG.len) fun _ => h1, h2⟩

/-! ### Failing allocations -/

theorem growAt_fail (E : Elem α) {pos num : Nat} (hat : C.at' = some 0) (hp : pos ≤ xs.length)
    (hc : h.cap C.P.N < xs.length + num) :
    growAt C.P E pos num (st C h k xs nx g) = .throw .badAlloc (st C h k xs nx g) := by
  have h1 : ¬ ((pos : Int) < 0 ∨ (pos : Int) > (xs.length : Int)) := by omega
  simp only [growAt, M.bind_apply, size_st, h1, if_false]
  simp only [st, chooseData_fail hat hc]

theorem growAt_fail' (E : Elem α) {pos : Int} {num : Nat} (hat : C.at' = some 0)
    (hc : (0 ≤ pos ∧ pos ≤ xs.length) ∧ h.cap C.P.N < xs.length + num) :
    growAt C.P E pos num (st C h k xs nx g) = .throw .badAlloc (st C h k xs nx g) := by
  obtain ⟨p, rfl⟩ := Int.eq_ofNat_of_zero_le hc.1.1
  exact growAt_fail E hat (by omega) hc.2

theorem reserve_fail (E : Elem α) {d : Nat} (hat : C.at' = some 0) (hc : h.cap C.P.N < d) :
    reserve C.P E d (st C h k xs nx g) = .throw .badAlloc (st C h k xs nx g) := by
  simp only [reserve, M.bind_apply, M.get_apply]
  rw [if_neg (by simp only [st, stB_cap]; omega)]
  simp only [st, M.bind_apply, chooseData_fail hat hc]

/-- a failing allocation, except in `assign` -/
theorem exec_fail (E : Elem α) {op : Op α} (hat : C.at' = some 0) (ha : allocs C.P.N op h xs = true)
    (h1 : ∀ n v, op ≠ .assignN n v) (h2 : ∀ ys, op ≠ .assignRange ys) :
    exec C.P E op (st C h k xs nx g) = .throw .badAlloc (st C h k xs nx g) := by
  cases op with
  | assignN n v => exact absurd rfl (h1 n v)
  | assignRange ys => exact absurd rfl (h2 ys)
  | pushBack v =>
    simp only [allocs, decide_eq_true_eq] at ha
    simp only [exec, pushBack, M.bind_apply, bindRef_st, size_st, growAt_fail E hat (Nat.le_refl _) ha]
  | emplaceBack v =>
    simp only [allocs, decide_eq_true_eq] at ha
    simp only [exec, emplaceBack, M.bind_apply, bindRef_st, size_st, growAt_fail E hat (Nat.le_refl _) ha]
  | insert pos v =>
    simp only [allocs, decide_eq_true_eq] at ha
    simp only [exec, insert, M.bind_apply, bindRef_st, growAt_fail' E hat ha]
  | insertN pos d v =>
    simp only [allocs, decide_eq_true_eq] at ha
    simp only [exec, insertN, M.bind_apply, bindRef_st, growAt_fail' E hat ha]
  | insertRange pos ys =>
    simp only [allocs, decide_eq_true_eq] at ha
    simp only [exec, insertRange, M.bind_apply, growAt_fail' E hat ha]
  | reserve d =>
    simp only [allocs, decide_eq_true_eq] at ha
    simp only [exec, M.bind_apply, reserve_fail E hat ha]
  | resize d =>
    simp only [allocs, decide_eq_true_eq] at ha
    simp only [exec, resizeV, M.bind_apply, bindRef_st, reserve_fail E hat ha]
  | resizeV d v =>
    simp only [allocs, decide_eq_true_eq] at ha
    simp only [exec, resizeV, M.bind_apply, bindRef_st, reserve_fail E hat ha]
  | shrinkToFit =>
    simp only [allocs, decide_eq_true_eq] at ha
    obtain ⟨a1, a2, a3⟩ := ha
    cases h with
    | stat => exact absurd rfl a2
    | dyn c =>
      simp only [exec, shrinkToFit, M.bind_apply, size_st, M.get_apply]
      rw [if_neg (by simp only [st, stB_cap, Home.cap]; intro e; exact a3 (by rw [e])), if_neg (by simp [st]), if_neg (by omega)]
      simp [allocate, st, hat]
  | _ => simp [allocs] at ha

theorem assignN_fail {d : Nat} {v : Arg α} (hat : C.at' = some 0) (hl : xs.length ≤ h.cap C.P.N) (hc : h.cap C.P.N < d) :
    assignN C.P d v (st C h k xs nx g) = .throw .badAlloc (stB C h k (Buf.fresh (h.cap C.P.N)) xs.length nx g) := by
  simp only [assignN, M.bind_apply, bindRef_st, destroyAll_st hl, assignFill, chooseData_fail hat hc]

theorem assignRange_fail {ys : List α} (hat : C.at' = some 0) (hl : xs.length ≤ h.cap C.P.N) (hc : h.cap C.P.N < ys.length) :
    assignRange C.P ys (st C h k xs nx g) = .throw .badAlloc (stB C h k (Buf.fresh (h.cap C.P.N)) xs.length nx g) := by
  simp only [assignRange, M.bind_apply, destroyAll_st hl, assignCopy, chooseData_fail hat hc]

/-! ### One call -/

theorem tk_st (c a : Option Nat) : (st C h k xs nx g).tk c a = st { C with ct := c, at' := a } h k xs nx g := rfl

theorem Stops.call (E : Elem α) {op : Op α} {s t : St α} {j na : Nat} {a : Option Nat}
    (hf : Stops (exec C.P E op) s j na t) (ha : Enough a na) :
    ∃ a', call C.P E op (s.tk (some j) a) = some (.exc .element, t.tk (some 0) a') := by
  obtain ⟨a', e⟩ := hf.run a ha
  exact ⟨a', by simp only [SmallVector.call, e]⟩

/-- an element that throws: what becomes of the vector -/
theorem exec_stops (E : Elem α) {op : Op α} {r : Reply α} {h1 : Home} {xs1 : List α} (hG : Good C h k xs nx g) (hT : NoThrow C)
    (hs : Safe C.P.N C.P.R op h xs) (hstep : step C.P.N C.P.R E op h xs = some (r, h1, xs1)) {j : Nat} (hj : j < made op xs) :
    ∃ t, Stops (exec C.P E op) (st C h k xs nx g) j (if allocs C.P.N op h xs = true then 1 else 0) t ∧
      match op with
      | .assignN .. | .assignRange _ =>
        if moves C.P.N C.P.R (made op xs) h then Dead t else t = st C h k (xs1.take j) nx g
      | _ => Dead t := by
  cases op with
  | pushBack v =>
    simp only [step, Option.bind_eq_bind, Option.bind_eq_some_iff] at hstep
    obtain ⟨a, ha, -⟩ := hstep
    obtain ⟨t, e1, e2⟩ := pushBack_stops E hG hT ha hs
    simp only [made] at hj
    obtain rfl : j = 0 := by omega
    simp only [allocs, decide_eq_true_eq]
    exact ⟨t, e1.left, e2⟩
  | emplaceBack v =>
    simp only [step, Option.bind_eq_bind, Option.bind_eq_some_iff] at hstep
    obtain ⟨a, ha, -⟩ := hstep
    obtain ⟨t, e1, e2⟩ := emplaceBack_stops E hG hT ha hs
    simp only [made] at hj
    obtain rfl : j = 0 := by omega
    simp only [allocs, decide_eq_true_eq]
    exact ⟨t, e1.left, e2⟩
  | insert pos v =>
    simp only [step, Option.bind_eq_bind, Option.bind_eq_some_iff] at hstep
    obtain ⟨a, ha, -⟩ := hstep
    simp only [made] at hj
    have hp : 0 ≤ pos ∧ pos ≤ (xs.length : Int) := by by_contra hp; simp [hp] at hj
    rw [if_pos hp] at hj
    obtain ⟨p, rfl⟩ := Int.eq_ofNat_of_zero_le hp.1
    obtain ⟨t, e1, e2⟩ := insert_stops E hG hT ha (hs hp) (by omega)
    obtain rfl : j = 0 := by omega
    simp only [allocs, decide_eq_true_eq, hp, and_self, true_and]
    exact ⟨t, e1.left, e2⟩
  | insertN pos d v =>
    simp only [step, Option.bind_eq_bind, Option.bind_eq_some_iff] at hstep
    obtain ⟨a, ha, -⟩ := hstep
    simp only [made] at hj
    have hp : 0 ≤ pos ∧ pos ≤ (xs.length : Int) := by by_contra hp; simp [hp] at hj
    obtain ⟨p, rfl⟩ := Int.eq_ofNat_of_zero_le hp.1
    have hs := hs hp
    rw [if_pos hp] at hj
    rw [if_neg (by omega)] at hs
    obtain ⟨t, e1, e2⟩ := insertN_stops E hG hT ha hs (by omega) hj
    simp only [allocs, decide_eq_true_eq, hp, and_self, true_and]
    exact ⟨t, e1.left, e2⟩
  | insertRange pos ys =>
    simp only [made] at hj
    have hp : 0 ≤ pos ∧ pos ≤ (xs.length : Int) := by by_contra hp; simp [hp] at hj
    obtain ⟨p, rfl⟩ := Int.eq_ofNat_of_zero_le hp.1
    rw [if_pos hp] at hj
    obtain ⟨t, e1, e2⟩ := insertRange_stops E hG hT (pos := p) (by omega) hj
    simp only [allocs, decide_eq_true_eq, hp, and_self, true_and]
    exact ⟨t, e1.left, e2⟩
  | resize d =>
    obtain ⟨t, e1, e2⟩ := resizeV_stops E hG hT (v := .val E.dflt) rfl (Or.inr ⟨_, rfl⟩) hj
    simp only [allocs, decide_eq_true_eq]
    exact ⟨t, e1.left, e2⟩
  | resizeV d v =>
    simp only [step, Option.bind_eq_bind, Option.bind_eq_some_iff] at hstep
    obtain ⟨a, ha, -⟩ := hstep
    obtain ⟨t, e1, e2⟩ := resizeV_stops E hG hT ha hs hj
    simp only [allocs, decide_eq_true_eq]
    exact ⟨t, e1.left, e2⟩
  | assignN d v =>
    simp only [step, Option.bind_eq_bind, Option.bind_eq_some_iff, Option.some.injEq, Prod.mk.injEq] at hstep
    obtain ⟨a, ha, -, -, rfl⟩ := hstep
    obtain ⟨t, e1, e2⟩ := assignN_stops hG hT ha hs hj
    simp only [allocs, decide_eq_true_eq]
    refine ⟨t, e1.left, ?_⟩
    simp only [made] at hj
    rw [List.take_replicate, Nat.min_eq_left (Nat.le_of_lt hj)]
    exact e2
  | assignRange ys =>
    simp only [step, Option.some.injEq, Prod.mk.injEq] at hstep
    obtain ⟨-, -, rfl⟩ := hstep
    obtain ⟨t, e1, e2⟩ := assignRange_stops hG hT hj
    simp only [allocs, decide_eq_true_eq]
    exact ⟨t, e1.left, e2⟩
  | _ => simp [made] at hj

theorem fault_bad {c a : Option Nat} {al : Bool} {n : Nat} (h : al = true ∧ a = some 0) : fault c a al n = some .badAlloc := by
  simp [fault, h]

theorem fault_elem {a : Option Nat} {al : Bool} {n j : Nat} (h : ¬ (al = true ∧ a = some 0)) (hj : j < n) :
    fault (some j) a al n = some .element := by
  simp [fault, h, hj]

theorem fault_none {c a : Option Nat} {al : Bool} {n : Nat} (h : ¬ (al = true ∧ a = some 0)) (hc : Enough c n) :
    fault c a al n = none := by
  cases c with
  | none => simp [fault, h]
  | some j => simp only [Enough] at hc; simp [fault, h, hc]

theorem fault_enough {a : Option Nat} {al : Bool} (h : ¬ (al = true ∧ a = some 0)) :
    Enough a (if al = true then 1 else 0) := by
  split
  · rename_i hal
    cases a with
    | none => trivial
    | some i => cases i with
      | zero => exact absurd ⟨hal, rfl⟩ h
      | succ i => simp only [Enough]; omega
  · exact enough_zero a

/-- a call with throw points, according to the specification -/
theorem tcall_st (E : Elem α) {op : Op α} {r : Reply α × Home × List α} (hG : Good C h k xs nx g) (hT : NoThrow C)
    (hs : Safe C.P.N C.P.R op h xs) (hstep : step C.P.N C.P.R E op h xs = some r) (c a : Option Nat) :
    match tstep C.P.N C.P.R E c a op h xs with
    | some (r', h', xs') => ∃ k' nx' g' c' a', call C.P E op ((st C h k xs nx g).tk c a) =
        some (r', (st C h' k' xs' nx' g').tk c' a') ∧ Good C h' k' xs' nx' g'
    | none => ∃ e s', call C.P E op ((st C h k xs nx g).tk c a) = some (.exc e, s') ∧ Dead s' := by
  obtain ⟨r, h1, xs1⟩ := r
  simp only [tstep, hstep, Option.bind_eq_bind, Option.bind_some]
  by_cases hb : allocs C.P.N op h xs = true ∧ a = some 0
  · rw [fault_bad hb]
    obtain ⟨hb, rfl⟩ := hb
    by_cases h2 : (∃ n v, op = .assignN n v) ∨ ∃ ys, op = .assignRange ys
    · have e1 : call C.P E op ((st C h k xs nx g).tk c (some 0)) =
          some (.exc .badAlloc, (stB C h k (Buf.fresh (h.cap C.P.N)) xs.length nx g).tk c (some 0)) := by
        rcases h2 with ⟨d, v, rfl⟩ | ⟨ys, rfl⟩
        · simp only [allocs, decide_eq_true_eq] at hb
          have e := assignN_fail (C := { C with ct := c, at' := some 0 }) (k := k) (nx := nx) (g := g) (v := v) rfl hG.len hb
          rw [tk_st]
          simp only [call, exec, M.bind_apply, e]
          rfl
        · simp only [allocs, decide_eq_true_eq] at hb
          have e := assignRange_fail (C := { C with ct := c, at' := some 0 }) (k := k) (nx := nx) (g := g) rfl hG.len hb
          rw [tk_st]
          simp only [call, exec, M.bind_apply, e]
          rfl
      have goal : match (if xs = [] then some (.exc .badAlloc, h, []) else (none : Option (Reply α × Home × List α))) with
          | some (r', h', xs') => ∃ k' nx' g' c' a', call C.P E op ((st C h k xs nx g).tk c (some 0)) =
              some (r', (st C h' k' xs' nx' g').tk c' a') ∧ Good C h' k' xs' nx' g'
          | none => ∃ e s', call C.P E op ((st C h k xs nx g).tk c (some 0)) = some (.exc e, s') ∧ Dead s' := by
        by_cases hxs : xs = []
        · subst hxs
          simp only [if_true]
          refine ⟨k, nx, g, c, some 0, ?_, hG⟩
          rw [e1]
          simp [st, Buf.ofList_nil]
        · simp only [hxs, if_false]
          refine ⟨_, _, e1, ?_⟩
          have : 0 < xs.length := List.length_pos_iff.mpr hxs
          exact dead_stB (C := { C with ct := none, at' := none }) (q := 0) this rfl
      rcases h2 with ⟨d, v, rfl⟩ | ⟨ys, rfl⟩ <;> exact goal
    · have h3 : ∀ n v, op ≠ .assignN n v := fun n v e => h2 (Or.inl ⟨n, v, e⟩)
      have h4 : ∀ ys, op ≠ .assignRange ys := fun ys e => h2 (Or.inr ⟨ys, e⟩)
      have e := exec_fail (C := { C with ct := c, at' := some 0 }) (k := k) (nx := nx) (g := g) E rfl hb h3 h4
      have e5 : call C.P E op ((st C h k xs nx g).tk c (some 0)) = some (.exc .badAlloc, (st C h k xs nx g).tk c (some 0)) := by
        rw [tk_st]; simp only [call, e]
      cases op with
      | assignN n v => exact absurd rfl (h3 n v)
      | assignRange ys => exact absurd rfl (h4 ys)
      | _ => exact ⟨k, nx, g, c, some 0, e5, hG⟩
  · have ha := fault_enough hb
    by_cases hc : ∃ j, c = some j ∧ j < made op xs
    · obtain ⟨j, rfl, hj⟩ := hc
      rw [fault_elem hb hj]
      obtain ⟨t, e1, e2⟩ := exec_stops E hG hT hs hstep hj
      obtain ⟨a', e3⟩ := e1.call E ha
      by_cases h2 : (∃ n v, op = .assignN n v) ∨ ∃ ys, op = .assignRange ys
      · have e2 : if moves C.P.N C.P.R (made op xs) h then Dead t else t = st C h k (xs1.take j) nx g := by
          rcases h2 with ⟨d, v, rfl⟩ | ⟨ys, rfl⟩ <;> exact e2
        have goal : match (if moves C.P.N C.P.R (made op xs) h then (none : Option (Reply α × Home × List α))
              else some (.exc .element, h, xs1.take j)) with
            | some (r', h', xs') => ∃ k' nx' g' c' a', call C.P E op ((st C h k xs nx g).tk (some j) a) =
                some (r', (st C h' k' xs' nx' g').tk c' a') ∧ Good C h' k' xs' nx' g'
            | none => ∃ e s', call C.P E op ((st C h k xs nx g).tk (some j) a) = some (.exc e, s') ∧ Dead s' := by
          by_cases hm : moves C.P.N C.P.R (made op xs) h
          · rw [if_pos hm] at e2
            simp only [hm, if_true]
            exact ⟨_, _, e3, e2⟩
          · rw [if_neg hm] at e2
            subst e2
            simp only [hm, if_false]
            have hl : made op xs ≤ h.cap C.P.N := by
              cases h <;> simp only [moves, Home.cap] at hm ⊢ <;> omega
            refine ⟨k, nx, g, some 0, a', e3, hG.N, hG.R, hG.wf, hG.raw, ?_⟩
            simp only [List.length_take]; omega
        rcases h2 with ⟨d, v, rfl⟩ | ⟨ys, rfl⟩ <;> exact goal
      · have h3 : ∀ n v, op ≠ .assignN n v := fun n v e => h2 (Or.inl ⟨n, v, e⟩)
        have h4 : ∀ ys, op ≠ .assignRange ys := fun ys e => h2 (Or.inr ⟨ys, e⟩)
        cases op with
        | assignN n v => exact absurd rfl (h3 n v)
        | assignRange ys => exact absurd rfl (h4 ys)
        | _ => exact ⟨_, _, e3, e2⟩
    · have hc' : Enough c (made op xs) := by
        cases c with
        | none => trivial
        | some j => simp only [Enough]; by_contra hj; exact hc ⟨j, rfl, by omega⟩
      rw [fault_none hb hc']
      obtain ⟨k', nx', g', e1, e2⟩ := call_st E hG hT hs hstep
      have hF := (exec_frame E hG hT hs).run c a hc' ha
      rw [er_st hT] at hF
      simp only [call] at e1
      refine ⟨k', nx', g', ?_⟩
      revert hF e1
      cases exec C.P E op (st C h k xs nx g) with
      | ok b t =>
        intro e1 hF
        simp only [Option.some.injEq, Prod.mk.injEq] at e1
        obtain ⟨rfl, rfl⟩ := e1
        have hF1 : exec C.P E op ((st C h k xs nx g).tk c a) = _ := hF.1
        exact ⟨_, _, by simp only [call]; rw [hF1], e2⟩
      | throw e t =>
        intro e1 hF
        simp only [Option.some.injEq, Prod.mk.injEq] at e1
        obtain ⟨rfl, rfl⟩ := e1
        obtain ⟨c', a', hF⟩ := hF
        exact ⟨c', a', by simp only [call, hF], e2⟩
      | ub => intro e1; simp at e1

end Itlib.SmallVector
