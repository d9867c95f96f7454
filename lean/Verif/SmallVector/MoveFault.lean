import Verif.SmallVector.MoveLate

/-! # Moves that throw (proof engineering): what the functions of MoveModel.lean leave behind -/
namespace Itlib.SmallVector
open Itlib Spec
variable {α β γ : Type}

/-! ### Storage as a list of slots -/

/-- the storage whose first slots are given -/
def ofOpts (cap : Nat) (l : List (Option α)) : Buf α :=
  ⟨cap, fun i => match l[i]? with | some (some a) => .live a | _ => .raw⟩

@[simp] theorem ofOpts_cap (n : Nat) (l : List (Option α)) : (ofOpts n l).cap = n := id rfl

theorem ofOpts_map (n : Nat) (xs : List α) : ofOpts n (xs.map some) = Buf.ofList n xs := by
  ext i
  · rfl
  · simp only [ofOpts, Buf.ofList, List.getElem?_map]
    cases xs[i]? <;> rfl

theorem ofOpts_nil (n : Nat) : ofOpts n ([] : List (Option α)) = Buf.fresh n := by
  ext i <;> simp [ofOpts, Buf.fresh]

theorem ofOpts_pad (n m : Nat) (l : List (Option α)) : ofOpts n (l ++ List.replicate m none) = ofOpts n l := by
  ext i
  · rfl
  · simp only [ofOpts]
    by_cases h : i < l.length
    · rw [List.getElem?_append_left h]
    · rw [List.getElem?_append_right (by omega), List.getElem?_eq_none (l := l) (by omega)]
      by_cases h2 : i - l.length < m
      · simp [h2]
      · simp [h2]

theorem ofOpts_at (n : Nat) (us vs : List (Option α)) (o : Option α) :
    (ofOpts n (us ++ o :: vs)).cells us.length = match o with | some a => .live a | none => .raw := by
  simp only [ofOpts, List.getElem?_append_right (Nat.le_refl _), Nat.sub_self, List.getElem?_cons_zero]
  cases o <;> rfl

theorem ofOpts_out (n : Nat) (l : List (Option α)) {i : Nat} (h : l.length ≤ i) : (ofOpts n l).cells i = .raw := by
  simp [ofOpts, h]

theorem ofOpts_set (n : Nat) (us vs : List (Option α)) (o : Option α) (a : α) :
    (⟨n, Function.update (ofOpts n (us ++ o :: vs)).cells us.length (.live a)⟩ : Buf α) = ofOpts n (us ++ some a :: vs) := by
  ext i
  · rfl
  · simp only [Function.update_apply, ofOpts]
    by_cases h : i = us.length
    · subst h; simp
    · rw [if_neg h]
      by_cases h2 : i < us.length
      · rw [List.getElem?_append_left h2, List.getElem?_append_left h2]
      · rw [List.getElem?_append_right (by omega), List.getElem?_append_right (by omega)]
        obtain ⟨q, hq⟩ : ∃ q, i - us.length = q + 1 := ⟨i - us.length - 1, by omega⟩
        rw [hq]; rfl

theorem ofOpts_drop (n : Nat) (us vs : List (Option α)) (o : Option α) :
    (⟨n, Function.update (ofOpts n (us ++ o :: vs)).cells us.length .raw⟩ : Buf α) = ofOpts n (us ++ none :: vs) := by
  ext i
  · rfl
  · simp only [Function.update_apply, ofOpts]
    by_cases h : i = us.length
    · subst h; simp
    · rw [if_neg h]
      by_cases h2 : i < us.length
      · rw [List.getElem?_append_left h2, List.getElem?_append_left h2]
      · rw [List.getElem?_append_right (by omega), List.getElem?_append_right (by omega)]
        obtain ⟨q, hq⟩ : ∃ q, i - us.length = q + 1 := ⟨i - us.length - 1, by omega⟩
        rw [hq]; rfl

theorem ofOpts_push (n : Nat) (l : List (Option α)) (a : α) :
    (⟨n, Function.update (ofOpts n l).cells l.length (.live a)⟩ : Buf α) = ofOpts n (l ++ [some a]) := by
  have := ofOpts_set n l [] none a
  rw [← this]
  have h2 := ofOpts_pad n 1 l
  simp only [List.replicate_one] at h2
  rw [h2]

theorem range_filterMap (l : List (Option α)) : ∀ n, l.length ≤ n →
    (List.range n).filterMap (fun i => (match l[i]? with | some (some a) => some a | _ => none : Option α)) = l.filterMap id := by
  induction l with
  | nil => intro n _; simp
  | cons o l ih =>
    intro n hn
    obtain ⟨n, rfl⟩ : ∃ m, n = m + 1 := ⟨n - 1, by simp at hn; omega⟩
    rw [List.range_succ_eq_map, List.filterMap_cons, List.filterMap_map, List.filterMap_cons]
    have := ih n (by simp at hn; omega)
    have e : ((fun i => (match (o :: l)[i]? with | some (some a) => some a | _ => none : Option α)) ∘ Nat.succ) =
        fun i => (match l[i]? with | some (some a) => some a | _ => none : Option α) := by
      funext i; simp
    rw [e, this]
    cases o <;> simp

theorem objects_ofOpts {n : Nat} {l : List (Option α)} (h : l.length ≤ n) : objects (ofOpts n l) = l.filterMap id := by
  rw [← range_filterMap l n h]
  simp only [objects, ofOpts]
  congr 1
  funext i
  cases h : l[i]? with
  | none => rfl
  | some o => cases o <;> rfl

theorem live_of_objects {b : Buf α} (h : objects b ≠ []) : ∃ i a, b.cells i = .live a := by
  obtain ⟨x, hx⟩ := List.exists_mem_of_ne_nil _ h
  simp only [objects, List.mem_filterMap] at hx
  obtain ⟨i, _, hi⟩ := hx
  cases e : b.cells i with
  | live a => exact ⟨i, a, e⟩
  | raw => rw [e] at hi; simp at hi

/-! ### Single moves -/

variable (E : Elem α) (tr : α → α)

theorem torn_cons (j : Nat) (a : α) (xs : List α) : torn E tr (j+1) (a :: xs) = E.mv a :: torn E tr j xs := by
  simp [torn]

theorem torn_zero (a : α) (xs : List α) : torn E tr 0 (a :: xs) = tr a :: xs := by
  simp [torn]

theorem torn_length (j : Nat) (xs : List α) : (torn E tr j xs).length = xs.length := by
  induction xs generalizing j with
  | nil => simp [torn]
  | cons a xs ih =>
    cases j with
    | zero => simp [torn_zero]
    | succ j => simp [torn_cons, ih]

theorem torn_drop_length (j : Nat) (xs : List α) (i : Nat) (hi : i < j) (hx : j < xs.length) :
    (torn E tr j xs)[i]? = (xs[i]?).map E.mv := by
  induction xs generalizing j i with
  | nil => simp at hx
  | cons a xs ih =>
    cases j with
    | zero => omega
    | succ j =>
      rw [torn_cons]
      cases i with
      | zero => simp
      | succ i => simpa using ih j i (by omega) (by simpa using hx)

/-- splitting a torn sequence -/
theorem torn_append (j : Nat) (us xs : List α) : torn E tr (us.length + j) (us ++ xs) = us.map E.mv ++ torn E tr j xs := by
  induction us with
  | nil => simp
  | cons a us ih =>
    have : (a :: us).length + j = (us.length + j) + 1 := by simp; omega
    rw [this, List.cons_append, torn_cons, ih]
    simp

theorem torn_left (j : Nat) (us xs : List α) (hj : j < us.length) : torn E tr j (us ++ xs) = torn E tr j us ++ xs := by
  induction us generalizing j with
  | nil => simp at hj
  | cons a us ih =>
    cases j with
    | zero => simp [torn_zero]
    | succ j => simp [torn_cons, ih j (by simpa using hj)]

theorem may_ok {σ : Type} {bad good : M σ Unit} {s t : σ} {j : Nat} (h : good s = .ok () t) :
    mayThrow bad good ⟨s, some (j+1)⟩ = .ok () ⟨t, some j⟩ := by
  simp [mayThrow, lift, h]

theorem may_bad {σ : Type} {bad good : M σ Unit} {s t : σ} (h : bad s = .ok () t) :
    mayThrow bad good ⟨s, some 0⟩ = .throw .element ⟨t, none⟩ := by
  simp [mayThrow, lift, h]

variable {C : Ctx α} {h h' : Home} {k k' : Nat} {b b' c c' : Buf α} {e : Loc} {n nx : Nat} {g : List (Buf α)}

theorem tear_gen {l : Loc} {p : Nat} {a : α} {s : St α} (hb : s.buf l = some b) (hp : p < b.cap) (ha : b.cells p = .live a) :
    tear tr l p s = .ok () (s.setBuf l ⟨b.cap, Function.update b.cells p (.live (tr a))⟩) := by
  simp [tear, loadRef, M.load, onLoc, M.mem, hb, Buf.read_live hp ha, Buf.assign_live hp ha]

theorem tear_src {p : Nat} {a : α} (hd : loc C.i k h ≠ loc C.i k' h') (hp : p < b.cap) (ha : b.cells p = .live a) :
    tear tr (loc C.i k h) p (stB2 C h k b e n h' k' c nx g) =
      .ok () (stB2 C h k ⟨b.cap, Function.update b.cells p (.live (tr a))⟩ e n h' k' c nx g) := by
  rw [tear_gen tr (buf_src hd) hp ha, setBuf_src hd]

theorem tear_stB {p : Nat} {a : α} (hp : p < b.cap) (ha : b.cells p = .live a) :
    tear tr (loc C.i k h) p (stB C h k b n nx g) =
      .ok () (stB C h k ⟨b.cap, Function.update b.cells p (.live (tr a))⟩ n nx g) := by
  rw [tear_gen tr buf_stB hp ha, setBuf_stB]

theorem moveLoop_one (mv : α → α) {p np : Nat} {a : α} (hp : p < b.cap) (ha : b.cells p = .live a) (hn : np < c.cap)
    (hr : c.cells np = .raw) : moveLoop mv p np 1 b c =
      some (⟨b.cap, Function.update b.cells p (.live (mv a))⟩, ⟨c.cap, Function.update c.cells np (.live a)⟩) := by
  simp [moveLoop, Buf.moveOut_live hp ha, Buf.construct_raw hn hr]

theorem moveLoop_opts (mv : α → α) {cb cc : Nat} (us vs l : List (Option α)) (a : α)
    (hp : us.length < cb) (hn : l.length < cc) :
    moveLoop mv us.length l.length 1 (ofOpts cb (us ++ some a :: vs)) (ofOpts cc l) =
      some (ofOpts cb (us ++ some (mv a) :: vs), ofOpts cc (l ++ [some a])) := by
  rw [moveLoop_one mv (a := a) (by simpa using hp) (by rw [ofOpts_at]) (by simpa using hn) (ofOpts_out _ _ (Nat.le_refl _))]
  simp only [ofOpts_cap]
  rw [ofOpts_set, ofOpts_push]

/-! ### Loops between two buffers -/

section loops
variable (hd : loc C.i k h ≠ loc C.i k' h') {cb cc : Nat}
include hd

theorem moveLoopT_ok : ∀ (xs zs : List α) (us l : List (Option α)) (j : Nat),
    us.length + xs.length ≤ cb → l.length + xs.length ≤ cc →
    moveLoopT E tr (loc C.i k h) (loc C.i k' h') us.length l.length xs.length
      ⟨stB2 C h k (ofOpts cb (us ++ (xs ++ zs).map some)) e n h' k' (ofOpts cc l) nx g, some (xs.length + j)⟩ =
    .ok () ⟨stB2 C h k (ofOpts cb (us ++ (xs.map E.mv ++ zs).map some)) e n h' k' (ofOpts cc (l ++ xs.map some)) nx g, some j⟩ := by
  intro xs
  induction xs with
  | nil => intro zs us l j _ _; simp [moveLoopT]
  | cons a xs ih =>
    intro zs us l j h1 h2
    simp only [List.length_cons] at h1 h2
    simp only [List.length_cons, moveLoopT, M.bind_apply, moveOneT]
    rw [show xs.length + 1 + j = (xs.length + j) + 1 by omega, List.cons_append, List.map_cons]
    rw [may_ok (onLoc2_stB2 hd (moveLoop_opts E.mv us _ l a (by omega) (by omega)))]
    have := ih zs (us ++ [some (E.mv a)]) (l ++ [some a]) j (by simp; omega) (by simp; omega)
    simp only [List.length_append, List.length_singleton, List.append_assoc, List.singleton_append] at this
    simp only [this]
    simp

theorem moveLoopT_fault : ∀ (j K : Nat) (xs : List α) (us l : List (Option α)), j < K → K ≤ xs.length →
    us.length + K ≤ cb → l.length + K ≤ cc →
    moveLoopT E tr (loc C.i k h) (loc C.i k' h') us.length l.length K
      ⟨stB2 C h k (ofOpts cb (us ++ xs.map some)) e n h' k' (ofOpts cc l) nx g, some j⟩ =
    .throw .element ⟨stB2 C h k (ofOpts cb (us ++ (torn E tr j xs).map some)) e n h' k'
      (ofOpts cc (l ++ (xs.take j).map some)) nx g, none⟩ := by
  intro j
  induction j with
  | zero =>
    intro K xs us l h1 h2 h3 h4
    obtain ⟨K, rfl⟩ : ∃ q, K = q + 1 := ⟨K - 1, by omega⟩
    cases xs with
    | nil => simp at h2
    | cons a xs =>
      simp only [moveLoopT, M.bind_apply, moveOneT, List.map_cons]
      rw [may_bad (tear_src tr (a := a) hd (by simp only [ofOpts_cap]; omega) (by rw [ofOpts_at]))]
      simp [ofOpts_set, torn_zero]
  | succ j ih =>
    intro K xs us l h1 h2 h3 h4
    obtain ⟨K, rfl⟩ : ∃ q, K = q + 1 := ⟨K - 1, by omega⟩
    cases xs with
    | nil => simp at h2
    | cons a xs =>
      simp only [moveLoopT, M.bind_apply, moveOneT, List.map_cons]
      rw [may_ok (onLoc2_stB2 hd (moveLoop_opts E.mv us _ l a (by omega) (by omega)))]
      have := ih K xs (us ++ [some (E.mv a)]) (l ++ [some a]) (by omega) (by simpa using h2) (by simp; omega) (by simp; omega)
      simp only [List.length_append, List.length_singleton, List.append_assoc, List.singleton_append] at this
      simp only [this]
      simp [torn_cons]

theorem relocLoopT_ok : ∀ (xs : List α) (us vs l : List (Option α)) (j : Nat),
    us.length + xs.length ≤ cb → l.length + xs.length ≤ cc →
    relocLoopT E tr (loc C.i k h) (loc C.i k' h') us.length l.length xs.length
      ⟨stB2 C h k (ofOpts cb (us ++ (xs.map some ++ vs))) e n h' k' (ofOpts cc l) nx g, some (xs.length + j)⟩ =
    .ok () ⟨stB2 C h k (ofOpts cb (us ++ (List.replicate xs.length none ++ vs))) e n h' k' (ofOpts cc (l ++ xs.map some)) nx g,
      some j⟩ := by
  intro xs
  induction xs with
  | nil => intro us vs l j _ _; simp [relocLoopT]
  | cons a xs ih =>
    intro us vs l j h1 h2
    simp only [List.length_cons] at h1 h2
    simp only [List.length_cons, relocLoopT, M.bind_apply, moveOneT]
    rw [show xs.length + 1 + j = (xs.length + j) + 1 by omega, List.map_cons, List.cons_append]
    rw [may_ok (onLoc2_stB2 hd (moveLoop_opts E.mv us _ l a (by omega) (by omega)))]
    have hdel : (ofOpts cb (us ++ some (E.mv a) :: (xs.map some ++ vs))).destroy us.length =
        some (ofOpts cb (us ++ none :: (xs.map some ++ vs))) := by
      rw [Buf.destroy_live (a := E.mv a) (by simp only [ofOpts_cap]; omega) (by rw [ofOpts_at])]
      simp only [ofOpts_cap, ofOpts_drop]
    simp only [lift, onLoc_src hd hdel]
    have := ih (us ++ [none]) vs (l ++ [some a]) j (by simp; omega) (by simp; omega)
    simp only [List.length_append, List.length_singleton, List.append_assoc, List.singleton_append] at this
    simp only [this]
    simp [List.replicate_succ]

theorem relocLoopT_fault : ∀ (j K : Nat) (xs : List α) (us l : List (Option α)), j < K → K ≤ xs.length →
    us.length + K ≤ cb → l.length + K ≤ cc →
    relocLoopT E tr (loc C.i k h) (loc C.i k' h') us.length l.length K
      ⟨stB2 C h k (ofOpts cb (us ++ xs.map some)) e n h' k' (ofOpts cc l) nx g, some j⟩ =
    .throw .element ⟨stB2 C h k (ofOpts cb (us ++ (List.replicate j none ++ ((torn E tr j xs).drop j).map some))) e n h' k'
      (ofOpts cc (l ++ (xs.take j).map some)) nx g, none⟩ := by
  intro j
  induction j with
  | zero =>
    intro K xs us l h1 h2 h3 h4
    obtain ⟨K, rfl⟩ : ∃ q, K = q + 1 := ⟨K - 1, by omega⟩
    cases xs with
    | nil => simp at h2
    | cons a xs =>
      simp only [relocLoopT, M.bind_apply, moveOneT, List.map_cons]
      rw [may_bad (tear_src tr (a := a) hd (by simp only [ofOpts_cap]; omega) (by rw [ofOpts_at]))]
      simp [ofOpts_set, torn_zero]
  | succ j ih =>
    intro K xs us l h1 h2 h3 h4
    obtain ⟨K, rfl⟩ : ∃ q, K = q + 1 := ⟨K - 1, by omega⟩
    cases xs with
    | nil => simp at h2
    | cons a xs =>
      simp only [relocLoopT, M.bind_apply, moveOneT, List.map_cons]
      rw [may_ok (onLoc2_stB2 hd (moveLoop_opts E.mv us _ l a (by omega) (by omega)))]
      have hdel : (ofOpts cb (us ++ some (E.mv a) :: xs.map some)).destroy us.length =
          some (ofOpts cb (us ++ none :: xs.map some)) := by
        rw [Buf.destroy_live (a := E.mv a) (by simp only [ofOpts_cap]; omega) (by rw [ofOpts_at])]
        simp only [ofOpts_cap, ofOpts_drop]
      simp only [lift, onLoc_src hd hdel]
      have := ih K xs (us ++ [none]) (l ++ [some a]) (by omega) (by simpa using h2) (by simp; omega) (by simp; omega)
      simp only [List.length_append, List.length_singleton, List.append_assoc, List.singleton_append] at this
      simp only [this]
      simp [torn_cons, List.replicate_succ]

end loops

/-! ### Loops in one buffer -/

theorem shiftUpT_fault (num pos : Nat) (hn : 0 < num) : ∀ (K j : Nat) (b : Buf α), j < K → pos + K + num ≤ b.cap →
    (∀ i, pos ≤ i → i < pos + K → ∃ a, b.cells i = .live a) → (∀ i, pos + K ≤ i → i < pos + K + num → b.cells i = .raw) →
    ∃ b' q, q < pos + K + num ∧ b'.cells q = .raw ∧
      shiftUpT E tr (loc C.i k h) num pos K ⟨stB C h k b n nx g, some j⟩ = .throw .element ⟨stB C h k b' n nx g, none⟩ := by
  intro K
  induction K with
  | zero => intro j b h1; omega
  | succ K ih =>
    intro j b h1 h2 h3 h4
    obtain ⟨a, ha⟩ := h3 (pos + K) (by omega) (by omega)
    cases j with
    | zero =>
      refine ⟨⟨b.cap, Function.update b.cells (pos + K) (.live (tr a))⟩, pos + K + 1, by omega, ?_, ?_⟩
      rotate_left
      · simp only [shiftUpT, M.bind_apply]
        rw [may_bad (tear_stB tr (by omega) ha)]
      · simp only [Function.update_apply]
        rw [if_neg (by omega)]
        exact h4 _ (by omega) (by omega)
    | succ j =>
      have e1 := Buf.moveConstruct_live (mv := E.mv) (b := b) (d := pos + K + num) (s := pos + K) (by omega) (by omega) ha
        (h4 _ (by omega) (by omega))
      have e2 := Buf.destroy_live (i := pos + K) (a := E.mv a)
        (b := ⟨b.cap, Function.update (Function.update b.cells (pos + K) (.live (E.mv a))) (pos + K + num) (.live a)⟩)
        (by simp only; omega) (by simp only [Function.update_apply]; rw [if_neg (by omega)]; simp)
      obtain ⟨b', q, hq, hr, hf⟩ := ih j ⟨b.cap, Function.update (Function.update (Function.update b.cells (pos + K)
          (.live (E.mv a))) (pos + K + num) (.live a)) (pos + K) .raw⟩ (by omega) (by simp only; omega)
        (by
          intro i g1 g2
          simp only [Function.update_apply]
          rw [if_neg (by omega), if_neg (by omega), if_neg (by omega)]
          exact h3 i g1 (by omega))
        (by
          intro i g1 g2
          simp only [Function.update_apply]
          by_cases e : i = pos + K
          · rw [if_pos e]
          · rw [if_neg e, if_neg (by omega), if_neg e]
            exact h4 i (by omega) (by omega))
      refine ⟨b', q, by omega, hr, ?_⟩
      simp only [shiftUpT, M.bind_apply]
      rw [may_ok (onLoc_stB (f := fun b => b.moveConstruct E.mv (pos + K + num) (pos + K)) e1)]
      simp only [lift, onLoc_stB (f := fun b => b.destroy (pos + K)) e2]
      exact hf

theorem shiftDownT_fault : ∀ (K j p np : Nat) (b : Buf α), j < K → p < np → np + K ≤ b.cap →
    (∀ i, p ≤ i → i < np + K → ∃ a, b.cells i = .live a) →
    ∃ b' q, q < p + K ∧ b'.cells q = .raw ∧
      shiftDownT E tr (loc C.i k h) p np K ⟨stB C h k b n nx g, some j⟩ = .throw .element ⟨stB C h k b' n nx g, none⟩ := by
  intro K
  induction K with
  | zero => intro j p np b h1; omega
  | succ K ih =>
    intro j p np b h1 h2 h3 h4
    obtain ⟨a, ha⟩ := h4 p (by omega) (by omega)
    obtain ⟨a', ha'⟩ := h4 np (by omega) (by omega)
    have e1 := Buf.destroy_live (b := b) (i := p) (by omega) ha
    have ha2 : (⟨b.cap, Function.update b.cells p .raw⟩ : Buf α).cells np = .live a' := by
      simp only [Function.update_apply]; rw [if_neg (by omega)]; exact ha'
    simp only [shiftDownT, M.bind_apply]
    simp only [lift, onLoc_stB (f := fun b => b.destroy p) e1]
    cases j with
    | zero =>
      refine ⟨⟨b.cap, Function.update (Function.update b.cells p .raw) np (.live (tr a'))⟩, p, by omega, ?_, ?_⟩
      rotate_left
      · rw [may_bad (tear_stB tr (by simp only; omega) ha2)]
      · simp only [Function.update_apply]
        rw [if_neg (by omega)]; simp
    | succ j =>
      have e2 := Buf.moveConstruct_live (mv := E.mv) (b := ⟨b.cap, Function.update b.cells p .raw⟩) (d := p) (s := np)
        (by simp only; omega) (by simp only; omega) ha2 (by simp)
      rw [may_ok (onLoc_stB (f := fun b => b.moveConstruct E.mv p np) e2)]
      obtain ⟨b', q, hq, hr, hf⟩ := ih j (p+1) (np+1) ⟨b.cap, Function.update (Function.update (Function.update b.cells p .raw)
          np (.live (E.mv a'))) p (.live a')⟩ (by omega) (by omega) (by simp only; omega)
        (by
          intro i g1 g2
          simp only [Function.update_apply]
          rw [if_neg (by omega)]
          split
          · exact ⟨_, rfl⟩
          · rw [if_neg (by omega)]
            exact h4 i (by omega) (by omega))
      exact ⟨b', q, by omega, hr, hf⟩

end Itlib.SmallVector
