import Verif.PodVector.Exec

/-!
# C83: references to elements of a `pod_vector`

As for `static_vector` (`StaticVector/Stable.lean`), as long as the capacity suffices; the slot of an element is `sizeof(T)` bytes here.
-/
namespace Itlib.PodVector
open Itlib

namespace Spec

/-- the elements that a call on a vector of `n` elements and capacity `c` leaves alone: those in front of the place where it inserts or erases, if the
capacity suffices; the argument of the call is read, and is not among them -/
def Keeps (sz : Nat) (op : Op) (c n i : Nat) : Prop :=
  match op with
  | .reserve m => m ≤ c
  | .shrinkToFit => n = c
  | .insert pos v => i < pos ∧ v ≠ .self i ∧ n + 1 ≤ c
  | .insertN pos m v => i < pos ∧ v ≠ .self i ∧ n + m ≤ c
  | .insertRange pos ys => i < pos ∧ n + ys.length ≤ c
  | .erase pos => i < pos
  | .eraseRange f _ => i < f
  | .emplaceBack => n + 1 ≤ c
  | .pushBack v => i < n ∧ v ≠ .self i ∧ n + 1 ≤ c
  | .popBack => i + 1 < n
  | .resize m => i < n ∧ m ≤ c
  | .resizeV m v => i < n ∧ v ≠ .self i ∧ m ≤ c
  | .set j x => i ≠ j ∧ x.length = sz
  | .get j => i ≠ j
  | .getBack => i + 1 < n
  | .clear | .size | .capacity => True
  | .assignN _ _ | .assignRange _ => False

/-- all calls of a history leave element `i` alone -/
def KeepsRun (sz : Nat) (zero : Bool) (i : Nat) : List Op → Nat → List E → Prop
  | [], _, _ => True
  | op :: ops, c, xs => Keeps sz op c xs.length i ∧ ∀ r c' xs', step sz zero op c xs = some (r, c', xs') → KeepsRun sz zero i ops c' xs'

end Spec

/-- the block with other bytes from offset `lo` up to `hi` -/
def Block.over (b : Block) (lo hi : Nat) (x : Nat → Cell) : Block := { b with cells := fun j => if lo ≤ j ∧ j < hi then x j else b.cells j }

/-- the memory with other bytes in slot `i` of the storage at `p` -/
def St.over (s : St) (P : Params) (p : Ptr) (i : Nat) (x : Nat → Cell) : St :=
  { s with heap := fun a => if a = p.base then (s.heap a).map (·.over (p.off + i * P.sz) (p.off + (i + 1) * P.sz) x) else s.heap a }

/-- the same for the state after a call -/
def overRes {β : Type} (r : Res St β) (P : Params) (p : Ptr) (i : Nat) (x : Nat → Cell) : Res St β :=
  match r with
  | .ok a s => .ok a (s.over P p i x)
  | .throw e s => .throw e (s.over P p i x)
  | .ub => .ub

/-- after the call from `s`, `data()` is `p`, and the memory there has not been given back -/
def AtRes {β : Type} (r : Res St β) (s : St) (p : Ptr) : Prop :=
  match r with
  | .ok _ s' | .throw _ s' => s'.v.bgn = p ∧ ((s.heap p.base).isSome → (s'.heap p.base).isSome)
  | .ub => True

theorem AtRes.trans {β : Type} {r : Res St β} {s s' : St} {p : Ptr} (h : (s.heap p.base).isSome → (s'.heap p.base).isSome) (hr : AtRes r s' p) :
    AtRes r s p := by
  cases r with
  | ok a t => exact ⟨hr.1, fun q => hr.2 (h q)⟩
  | throw e t => exact ⟨hr.1, fun q => hr.2 (h q)⟩
  | ub => trivial

/-- from the state `s`, `m` does not touch slot `i` of the storage at `p` and leaves the elements there -/
def Fr {β : Type} (P : Params) (p : Ptr) (i : Nat) (m : M St β) (s : St) : Prop :=
  (∀ x, m (s.over P p i x) = overRes (m s) P p i x) ∧ AtRes (m s) s p

variable {P : Params} {p : Ptr} {i : Nat} {s : St} {β γ : Type}

theorem Fr.bind {m : M St β} {f : β → M St γ} (hm : Fr P p i m s) (hf : ∀ a s', m s = .ok a s' → s'.v.bgn = p → Fr P p i (f a) s') :
    Fr P p i (m >>= f) s := by
  constructor
  · intro x
    simp only [M.bind_apply, hm.1 x]
    cases h : m s with
    | ok a s' => exact (hf a s' h (by have := hm.2; rw [h] at this; exact this.1)).1 x
    | throw e s' => rfl
    | ub => rfl
  · simp only [M.bind_apply]
    have h2 := hm.2
    cases h : m s with
    | ok a s' => rw [h] at h2; exact (hf a s' h h2.1).2.trans h2.2
    | throw e s' => rw [h] at h2; exact h2
    | ub => trivial

theorem Fr.get {f : St → M St β} (he : ∀ x, f (s.over P p i x) = f s) (hf : Fr P p i (f s) s) : Fr P p i (M.get >>= f) s := by
  constructor
  · intro x
    simp only [M.bind_apply, M.get_apply, he x]
    exact hf.1 x
  · exact hf.2

/-- a first step that depends on the members of the vector only and changes nothing -/
theorem Fr.det {m : M St β} {f : β → M St γ} {a : β} (h : ∀ t : St, t.v = s.v → m t = .ok a t) (hf : Fr P p i (f a) s) : Fr P p i (m >>= f) s := by
  constructor
  · intro x
    simp only [M.bind_apply, h s rfl, h (s.over P p i x) rfl]
    exact hf.1 x
  · simp only [M.bind_apply, h s rfl]
    exact hf.2

theorem Fr.pure (a : β) (h : s.v.bgn = p) : Fr P p i (pure a : M St β) s := ⟨fun _ => rfl, h, id⟩
theorem Fr.undef : Fr P p i (M.undef : M St β) s := ⟨fun _ => rfl, trivial⟩
theorem Fr.setSize (n : Nat) (h : s.v.bgn = p) : Fr P p i (setSize P n) s := ⟨fun _ => rfl, h, id⟩

/-- `n` bytes at `q` are outside of the slot -/
def Far (P : Params) (p : Ptr) (i : Nat) (q : Ptr) (n : Nat) : Prop :=
  q.base ≠ p.base ∨ q.off + n ≤ p.off + i * P.sz ∨ p.off + (i + 1) * P.sz ≤ q.off

theorem sl_over {b : Block} {lo hi off n : Nat} {x : Nat → Cell} (h : off + n ≤ lo ∨ hi ≤ off) : (b.over lo hi x).sl off n = b.sl off n := by
  simp only [Block.sl, Block.over]
  apply List.map_congr_left
  intro j hj
  rw [List.mem_range] at hj
  rw [if_neg (by omega)]

theorem wr_over {b : Block} {lo hi off : Nat} {l : List Cell} {x : Nat → Cell} (h : off + l.length ≤ lo ∨ hi ≤ off) :
    (b.over lo hi x).wr off l = (b.wr off l).over lo hi x := by
  simp only [Block.wr, Block.over, Block.mk.injEq, true_and]
  funext j
  by_cases h1 : off ≤ j ∧ j < off + l.length
  · rw [if_pos h1, if_neg (by omega), if_pos h1]
  · rw [if_neg h1, if_neg h1]

theorem Fr.readAt {q : Ptr} {n : Nat} (h : Far P p i q n) (hl : s.v.bgn = p) : Fr P p i (readAt q n) s := by
  constructor
  · intro x
    simp only [PodVector.readAt, M.load, St.over]
    by_cases hq : q.base = p.base
    · rw [if_pos hq]
      cases hb : s.heap q.base with
      | none => simp only [Option.map_none]; rfl
      | some b =>
        simp only [Option.map_some]
        rw [sl_over (h.resolve_left fun c => c hq)]
        by_cases hs : q.off + n ≤ b.size
        · rw [if_pos (show q.off + n ≤ (b.over _ _ x).size from hs), if_pos hs]; rfl
        · rw [if_neg (show ¬ q.off + n ≤ (b.over _ _ x).size from hs), if_neg hs]; rfl
    · rw [if_neg hq]
      cases hb : s.heap q.base with
      | none => rfl
      | some b => by_cases hs : q.off + n ≤ b.size <;> simp only [hs, if_true, if_false] <;> rfl
  · simp only [PodVector.readAt, M.load]
    cases hb : s.heap q.base with
    | none => trivial
    | some b =>
      by_cases hs : q.off + n ≤ b.size
      · simp only [hs, if_true]; exact ⟨hl, id⟩
      · simp only [hs, if_false]; trivial

theorem Fr.writeAt {q : Ptr} {l : List Cell} (h : Far P p i q l.length) (hl : s.v.bgn = p) : Fr P p i (writeAt q l) s := by
  constructor
  · intro x
    simp only [PodVector.writeAt, M.mem]
    by_cases hq : q.base = p.base
    · have e : (s.over P p i x).heap q.base = (s.heap q.base).map (·.over (p.off + i * P.sz) (p.off + (i + 1) * P.sz) x) := if_pos hq
      rw [e]
      cases hb : s.heap q.base with
      | none => simp only [Option.map_none]; rfl
      | some b =>
        simp only [Option.map_some]
        rw [wr_over (h.resolve_left fun c => c hq)]
        by_cases hs : q.off + l.length ≤ b.size
        · rw [if_pos (show q.off + l.length ≤ (b.over _ _ x).size from hs), if_pos hs]
          simp only [overRes, St.over, Res.ok.injEq, true_and, St.mk.injEq, and_true]
          funext a
          by_cases ha : a = q.base
          · subst ha; simp [hq]
          · simp [Function.update_of_ne ha]
        · rw [if_neg (show ¬ q.off + l.length ≤ (b.over _ _ x).size from hs), if_neg hs]; rfl
    · have e : (s.over P p i x).heap q.base = s.heap q.base := if_neg hq
      rw [e]
      cases hb : s.heap q.base with
      | none => rfl
      | some b =>
        by_cases hs : q.off + l.length ≤ b.size
        · simp only [hs, if_true, overRes, St.over, Res.ok.injEq, true_and, St.mk.injEq, and_true]
          funext a
          by_cases ha : a = q.base
          · subst ha; simp [hq]
          · simp [Function.update_of_ne ha]
        · simp only [hs, if_false]; rfl
  · simp only [PodVector.writeAt, M.mem]
    cases hb : s.heap q.base with
    | none => trivial
    | some b =>
      by_cases hs : q.off + l.length ≤ b.size
      · simp only [hs, if_true]
        refine ⟨hl, fun hq => ?_⟩
        by_cases ha : p.base = q.base
        · simp [ha]
        · simp only [Function.update_of_ne ha]; exact hq
      · simp only [hs, if_false]; trivial

/-- everything behind the slot -/
def Behind (P : Params) (p : Ptr) (i : Nat) (q : Ptr) : Prop := p.off + (i + 1) * P.sz ≤ q.off

theorem Behind.far {q : Ptr} {n : Nat} (h : Behind P p i q) : Far P p i q n := .inr (.inr h)

theorem behind_add {j : Nat} (h : i < j) : Behind P p i (p.add (j * P.sz)) := by
  have := Nat.mul_le_mul_right P.sz (show i + 1 ≤ j from h)
  simp only [Behind, Ptr.add]
  omega

theorem Fr.copyBytes {d q : Ptr} {n : Nat} (hd : Behind P p i d) (hq : Behind P p i q) (hl : s.v.bgn = p) : Fr P p i (copyBytes d q n) s :=
  .bind (.readAt hq.far hl) fun _ _ _ h1 => .writeAt hd.far h1

/-- what a reference refers to is not in the slot -/
def Off (P : Params) (p : Ptr) (i : Nat) : Ref → Prop
  | .val _ => True
  | .slot q => Far P p i q P.sz

theorem Fr.bindRef {v : Arg (List Byte)} {f : Ref → M St β} (hv : v ≠ .self i) (hl : s.v.bgn = p) (hf : ∀ r, Off P p i r → Fr P p i (f r) s) :
    Fr P p i (PodVector.bindRef P v >>= f) s := by
  cases v with
  | val a => exact hf (.val a) trivial
  | self j =>
    have hj : j ≠ i := fun e => hv (by rw [e])
    refine hf (.slot (s.v.bgn.add (j * P.sz))) ?_
    rw [hl]
    rcases Nat.lt_or_gt_of_ne hj with h | h
    · have := Nat.mul_le_mul_right P.sz (show j + 1 ≤ i from h)
      refine .inr (.inl ?_)
      simp only [Ptr.add]
      rw [Nat.add_mul] at this
      omega
    · exact (behind_add h).far

theorem Fr.loadRef {r : Ref} (h : Off P p i r) (hl : s.v.bgn = p) : Fr P p i (loadRef P r) s := by
  cases r with
  | val a => exact .pure _ hl
  | slot q => exact .readAt h hl

theorem fr_fill {r : Ref} (hr : Off P p i r) (q : Ptr) (k : Nat) (h : Behind P p i q) (hl : s.v.bgn = p) : Fr P p i (fill P r q k) s := by
  induction k generalizing q s with
  | zero => exact .pure _ hl
  | succ k ih =>
    exact .bind (.loadRef hr hl) fun _ _ _ h1 => .bind (.writeAt h.far h1) fun _ _ _ h2 => ih _ (by simp only [Behind, Ptr.add] at *; omega) h2

/-- the vector has `n` elements in its storage -/
structure Tidy (P : Params) (s : St) (n : Nat) : Prop where
  sz : 0 < P.sz
  endp : s.v.endp = s.v.bgn.add (n * P.sz)

variable {n : Nat}

theorem size_tidy (ht : Tidy P s n) : ∀ t : St, t.v = s.v → size P t = .ok n t := by
  intro t e
  simp only [size, M.bind_apply, M.get_apply, e, ht.endp]
  simp [Ptr.add, Nat.mul_div_cancel n ht.sz]

theorem reserve_fits {m : Nat} (h : m ≤ s.v.cap) : ∀ t : St, t.v = s.v → reserve P m t = .ok false t := by
  intro t e
  simp only [reserve, M.bind_apply, M.get_apply, e, h, if_true, M.pure_apply]

theorem fr_resize (ht : Tidy P s n) {m : Nat} (hi : i < n) (hc : m ≤ s.v.cap) (hl : s.v.bgn = p) : Fr P p i (resize P m) s := by
  refine .det (reserve_fits hc) (.det (size_tidy ht) (.get (fun _ => rfl) ?_))
  dsimp only
  split
  · rw [ht.endp, hl]
    exact .bind (.writeAt (behind_add hi).far hl) fun _ _ _ h1 => .bind (.setSize _ h1) fun _ _ _ h2 => .pure _ h2
  · exact .bind (.setSize _ hl) fun _ _ _ h2 => .pure _ h2

theorem fr_makeGap {k pos num : Nat} (hi : i < pos) (hl : s.v.bgn = p) : Fr P p i (makeGap P k pos num) s := by
  refine .get (fun _ => rfl) ?_
  rw [hl]
  exact .copyBytes (behind_add (by omega)) (behind_add hi) hl

theorem fr_growAt (ht : Tidy P s n) {pos num : Nat} (hi : i < pos) (hc : n + num ≤ s.v.cap) (hl : s.v.bgn = p) : Fr P p i (growAt P pos num) s := by
  refine .det (size_tidy ht) ?_
  split
  · exact .undef
  · split
    · exact .bind (fr_resize ht (by omega) hc hl) fun _ _ _ h1 => .bind (.setSize _ h1) fun _ _ _ h2 => .get (fun _ => rfl) (.pure _ h2)
    · refine .get (fun _ => rfl) ?_
      rw [if_neg (by omega)]
      exact .bind (fr_makeGap hi hl) fun _ _ _ h1 => .bind (.setSize _ h1) fun _ _ _ h2 => .get (fun _ => rfl) (.pure _ h2)

theorem M_bind_ok {σ : Type} {m : M σ β} {f : β → M σ γ} {t t' : σ} {c : γ} (h : (m >>= f) t = .ok c t') : ∃ a u, m t = .ok a u ∧ f a u = .ok c t' := by
  simp only [M.bind_apply] at h
  cases hm : m t with
  | ok a u => rw [hm] at h; exact ⟨a, u, rfl, h⟩
  | throw e u => rw [hm] at h; cases h
  | ub => rw [hm] at h; cases h

theorem growAt_ptr (ht : Tidy P s n) {pos num : Nat} {q : Ptr} {s' : St} (hi : i < pos) (hc : n + num ≤ s.v.cap) (hl : s.v.bgn = p)
    (h : growAt P pos num s = .ok q s') : q = p.add (pos * P.sz) := by
  have hb := (fr_growAt ht (i := i) hi hc hl).2
  rw [h] at hb
  unfold growAt at h
  obtain ⟨k, t, h1, h⟩ := M_bind_ok h
  split at h
  · cases h
  · have last : ∀ (m : M St Unit) (t : St), (m >>= fun _ => setSize P (k + num) >>= fun _ => M.get >>= fun st =>
        (Pure.pure (st.v.bgn.add (pos * P.sz)) : M St Ptr)) t = .ok q s' → q = s'.v.bgn.add (pos * P.sz) := by
      intro m t h
      obtain ⟨_, t1, _, h⟩ := M_bind_ok h
      obtain ⟨_, t2, _, h⟩ := M_bind_ok h
      obtain ⟨_, t3, h3, h⟩ := M_bind_ok h
      simp only [M.get_apply, Res.ok.injEq] at h3
      simp only [M.pure_apply, Res.ok.injEq] at h
      rw [← h.1, ← h.2, ← h3.1, h3.2]
    have hb : s'.v.bgn = p := hb.1
    rw [← hb]
    split at h
    · obtain ⟨_, t1, _, h⟩ := M_bind_ok h
      exact last (Pure.pure ()) t1 h
    · obtain ⟨st, t1, _, h⟩ := M_bind_ok h
      split at h
      · split at h
        · obtain ⟨ok, t2, _, h⟩ := M_bind_ok h
          split at h
          · exact last _ _ h
          · exact last _ _ h
        · split at h
          · exact last _ _ h
          · obtain ⟨_, t2, _, h⟩ := M_bind_ok h
            exact last _ _ h
      · exact last _ _ h

theorem fr_shrinkAt (ht : Tidy P s n) {pos num : Nat} (hi : i < pos) (hl : s.v.bgn = p) : Fr P p i (shrinkAt P pos num) s := by
  refine .det (size_tidy ht) ?_
  split
  · exact .setSize _ hl
  · split
    · exact .undef
    · refine .get (fun _ => rfl) ?_
      rw [hl]
      exact .bind (.copyBytes (behind_add hi) (behind_add (by omega)) hl) fun _ _ _ h1 => .setSize _ h1

theorem fr_known {l : List Cell} (hl : s.v.bgn = p) :
    Fr P p i (match l.mapM id with | some bs => (Pure.pure bs : M St (List Byte)) | none => M.undef) s := by
  cases l.mapM id with
  | none => exact .undef
  | some bs => exact .pure _ hl

theorem far_ne {j : Nat} (h : j ≠ i) {k : Nat} (hk : k ≤ P.sz) : Far P p i (p.add (j * P.sz)) k := by
  rcases Nat.lt_or_gt_of_ne h with h | h
  · have := Nat.mul_le_mul_right P.sz (show j + 1 ≤ i from h)
    refine .inr (.inl ?_)
    simp only [Ptr.add]
    rw [Nat.add_mul] at this
    omega
  · exact (behind_add h).far

/-- C83. A call leaves alone the elements in front of the place where it inserts or erases, and those that it has nothing to do with, as long as
the capacity suffices: with any other bytes in the slot of such an element, also indeterminate ones, it does and returns the same and leaves them
there; `data()` is as before and its memory is not given back. `s` is any state with `n` elements, sound or not. -/
theorem C83_pod_vector (ht : Tidy P s n) {op : Spec.Op} {i : Nat} (h : Spec.Keeps P.sz op s.v.cap n i) :
    (∀ x, exec P op (s.over P s.v.bgn i x) = overRes (exec P op s) P s.v.bgn i x) ∧ AtRes (exec P op s) s s.v.bgn := by
  obtain ⟨p, hl⟩ : ∃ p, s.v.bgn = p := ⟨_, rfl⟩
  rw [hl]
  show Fr P p i (exec P op) s
  cases op with
  | reserve m => exact .det (reserve_fits h) (.pure _ hl)
  | shrinkToFit =>
    refine .bind (.det (size_tidy ht) (.get (fun _ => rfl) ?_)) fun _ _ _ hq => .pure _ hq
    rw [if_pos (show n = s.v.cap from h)]
    exact .pure _ hl
  | clear => exact .bind (.setSize 0 hl) fun _ _ _ hq => .pure _ hq
  | insert pos v =>
    obtain ⟨h1, h2, h3⟩ := h
    refine .bind (.bindRef h2 hl fun r hr => .bind (fr_growAt ht h1 h3 hl) fun q s1 g1 g2 => ?_) fun _ _ _ hq => .pure _ hq
    rw [growAt_ptr ht h1 h3 hl g1]
    exact .bind (.loadRef hr g2) fun _ _ _ h4 => .writeAt (behind_add h1).far h4
  | insertN pos m v =>
    obtain ⟨h1, h2, h3⟩ := h
    refine .bind (.bindRef h2 hl fun r hr => .bind (fr_growAt ht h1 h3 hl) fun q s1 g1 g2 => ?_) fun _ _ _ hq => .pure _ hq
    rw [growAt_ptr ht h1 h3 hl g1]
    exact fr_fill hr _ m (behind_add h1) g2
  | insertRange pos ys =>
    obtain ⟨h1, h3⟩ := h
    refine .bind (.bind (fr_growAt ht h1 h3 hl) fun q s1 g1 g2 => ?_) fun _ _ _ hq => .pure _ hq
    rw [growAt_ptr ht h1 h3 hl g1]
    unfold copyIn
    split
    · exact .pure _ g2
    · exact .writeAt (behind_add h1).far g2
  | erase pos => exact .bind (fr_shrinkAt ht h hl) fun _ _ _ hq => .pure _ hq
  | eraseRange f l => exact .bind (fr_shrinkAt ht h hl) fun _ _ _ hq => .pure _ hq
  | emplaceBack =>
    refine .bind (.det (size_tidy ht) (.det (reserve_fits h) ⟨fun _ => rfl, hl, id⟩)) fun _ _ _ hq => .pure _ hq
  | pushBack v =>
    obtain ⟨h1, h2, h3⟩ := h
    refine .bind (.bindRef h2 hl fun r hr => .bind (.det (size_tidy ht) (.det (reserve_fits h3) ⟨fun _ => rfl, hl, id⟩)) fun _ s1 e1 b1 => ?_)
      fun _ _ _ hq => .pure _ hq
    have hv : s1.v.endp = (p.add (n * P.sz)).add P.sz := by
      simp only [emplaceBack, M.bind_apply, size_tidy ht s rfl, reserve_fits (P := P) h3 s rfl, M.modify_apply, Res.ok.injEq, true_and] at e1
      rw [← e1]
      show s.v.endp.add P.sz = _
      rw [ht.endp, hl]
    refine .det (a := p.add (n * P.sz)) (fun t e => ?_) (.bind (.loadRef hr b1) fun _ _ _ h4 => .writeAt (behind_add h1).far h4)
    simp only [backPtr, M.bind_apply, M.get_apply, e, hv]
    rw [if_neg (by simp only [Ptr.add]; omega)]
    simp [Ptr.add]
  | popBack =>
    refine .bind (.det (size_tidy ht) ?_) fun _ _ _ hq => .pure _ hq
    have h' : i + 1 < n := h
    rw [if_neg (by omega)]
    exact fr_shrinkAt ht (by omega) hl
  | resize m => exact .bind (fr_resize ht h.1 h.2 hl) fun _ _ _ hq => .pure _ hq
  | resizeV m v =>
    obtain ⟨h1, h2, h3⟩ := h
    refine .bind (.bindRef h2 hl fun r hr => .det (reserve_fits h3) (.get (fun _ => rfl) (.bind ?_ fun _ _ _ b1 => .bind (.setSize _ b1)
      fun _ _ _ b2 => .pure _ b2))) fun _ _ _ hq => .pure _ hq
    rw [ht.endp, hl]
    exact fr_fill hr _ m (behind_add h1) hl
  | assignN m v => exact h.elim
  | assignRange ys => exact h.elim
  | set j x =>
    refine .bind (.get (fun _ => rfl) ?_) fun _ _ _ hq => .pure _ hq
    rw [hl]
    exact .writeAt (far_ne h.1.symm (by rw [List.length_map]; exact Nat.le_of_eq h.2)) hl
  | get j =>
    refine .bind (.get (fun _ => rfl) ?_) fun _ _ _ hq => .pure _ hq
    rw [hl]
    exact .bind (.readAt (far_ne (Ne.symm h) (Nat.le_refl _)) hl) fun _ _ _ h1 => fr_known h1
  | getBack =>
    have h' : i + 1 < n := h
    refine .bind (.det (a := p.add ((n - 1) * P.sz)) (fun t e => ?_)
      (.bind (.readAt (behind_add (by omega)).far hl) fun _ _ _ h1 => fr_known h1)) fun _ _ _ hq => .pure _ hq
    have e1 : n * P.sz = (n - 1) * P.sz + P.sz := by
      obtain ⟨k, rfl⟩ : ∃ k, n = k + 1 := ⟨n - 1, by omega⟩
      rw [Nat.add_sub_cancel, Nat.add_mul, Nat.one_mul]
    simp only [backPtr, M.bind_apply, M.get_apply, e, ht.endp, hl]
    rw [if_neg (by simp only [Ptr.add]; omega)]
    simp only [Ptr.add, M.pure_apply, e1]
    congr 2
    omega
  | size => exact .det (size_tidy ht) (.pure _ hl)
  | capacity => exact .get (fun _ => rfl) (.pure _ hl)

/-- the state after a call, if its behaviour is defined -/
def after {β : Type} : Res St β → Option St
  | .ok _ s | .throw _ s => some s
  | .ub => none

/-- C83, what the owner of a pointer sees: the bytes it points to are the same after the call. -/
theorem C83_pod_vector_value (ht : Tidy P s n) {op : Spec.Op} {i : Nat} (h : Spec.Keeps P.sz op s.v.cap n i) {b : Block}
    (hb : s.heap s.v.bgn.base = some b) {s' : St} (hs : after (exec P op s) = some s') :
    s'.v.bgn = s.v.bgn ∧ ∃ b', s'.heap s.v.bgn.base = some b' ∧
      ∀ j, j < P.sz → b'.cells (s.v.bgn.off + i * P.sz + j) = b.cells (s.v.bgn.off + i * P.sz + j) := by
  obtain ⟨h1, h2⟩ := C83_pod_vector ht h
  have e0 : s.over P s.v.bgn i b.cells = s := by
    have : (fun a => if a = s.v.bgn.base then
        (s.heap a).map (·.over (s.v.bgn.off + i * P.sz) (s.v.bgn.off + (i + 1) * P.sz) b.cells) else s.heap a) = s.heap := by
      funext a
      by_cases ha : a = s.v.bgn.base
      · subst ha; simp [hb, Block.over]
      · simp [ha]
    simp only [St.over, this]
  have h1 := h1 b.cells
  rw [e0] at h1
  have key : s' = s'.over P s.v.bgn i b.cells ∧ s'.v.bgn = s.v.bgn ∧ (s'.heap s.v.bgn.base).isSome := by
    cases he : exec P op s with
    | ub => rw [he] at hs; cases hs
    | ok a t =>
      rw [he] at h1 h2 hs
      simp only [overRes, Res.ok.injEq, true_and] at h1
      simp only [after, Option.some.injEq] at hs
      rw [← hs]
      exact ⟨h1, h2.1, h2.2 (by simp [hb])⟩
    | throw e t =>
      rw [he] at h1 h2 hs
      simp only [overRes, Res.throw.injEq, true_and] at h1
      simp only [after, Option.some.injEq] at hs
      rw [← hs]
      exact ⟨h1, h2.1, h2.2 (by simp [hb])⟩
  obtain ⟨k1, k2, k3⟩ := key
  obtain ⟨b', hb'⟩ := Option.isSome_iff_exists.mp k3
  refine ⟨k2, b', hb', fun j hj => ?_⟩
  have k4 := congrArg (fun t : St => t.heap s.v.bgn.base) k1
  simp only [St.over, if_true, hb', Option.map_some, Option.some.injEq] at k4
  rw [k4]
  simp only [Block.over]
  rw [if_pos (by rw [Nat.add_mul, Nat.one_mul]; omega)]

end Itlib.PodVector
