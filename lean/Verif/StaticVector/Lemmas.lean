import Verif.StaticVector.Exec
import Verif.Core.BufLemmas

/-! # Proof engineering for `static_vector` (no property statements here) -/
namespace Itlib.StaticVector
open Itlib
variable {α : Type}

@[simp] theorem rep_size (cap : Nat) (xs : List α) : (rep cap xs).size = xs.length := id rfl
@[simp] theorem rep_cap (cap : Nat) (xs : List α) : (rep cap xs).buf.cap = cap := id rfl
@[simp] theorem rep_tick (cap : Nat) (xs : List α) : (rep cap xs).tick = none := id rfl
theorem rep_buf (cap : Nat) (xs : List α) : (rep cap xs).buf = Buf.ofList cap xs := rfl

theorem empty_eq_rep (cap : Nat) : (empty cap none : SV α) = rep cap [] := by
  simp [empty, rep, Buf.ofList_nil]

theorem onBuf_eq {f : Buf α → Option (Buf α)} {s : SV α} {b : Buf α} (h : f s.buf = some b) :
    onBuf f s = .ok () { s with buf := b } := by
  simp [onBuf, M.mem, h]

theorem onBuf_rep {f : Buf α → Option (Buf α)} {cap : Nat} {xs : List α} {b : Buf α}
    (h : f (Buf.ofList cap xs) = some b) : onBuf f (rep cap xs) = .ok () ⟨b, xs.length, none⟩ := onBuf_eq h

theorem onBuf_mk {f : Buf α → Option (Buf α)} {b b' : Buf α} {n : Nat} {t : Option Nat}
    (h : f b = some b') : onBuf f ⟨b, n, t⟩ = .ok () ⟨b', n, t⟩ := onBuf_eq h

theorem onBuf_rep_none {f : Buf α → Option (Buf α)} {cap : Nat} {xs : List α}
    (h : f (Buf.ofList cap xs) = none) : onBuf f (rep cap xs) = .ub := by
  simp [onBuf, M.mem, rep_buf, h]

theorem at_rep {cap : Nat} {xs : List α} {i : Nat} (h : i < xs.length) (hc : xs.length ≤ cap) :
    at_ i (rep cap xs) = .ok xs[i] (rep cap xs) := by
  simp [at_, h, rep_buf, Buf.ofList_read h hc]

theorem readArg_rep {cap : Nat} {xs : List α} {v : Arg α} {a : α} (hv : Spec.argVal xs v = some a)
    (hc : xs.length ≤ cap) : readArg v (rep cap xs) = .ok a (rep cap xs) := by
  cases v with
  | val b => simp [Spec.argVal] at hv; simp [readArg, hv]
  | self i =>
    simp [Spec.argVal] at hv
    obtain ⟨hi, rfl⟩ := List.getElem?_eq_some_iff.mp hv
    simp [readArg, M.load, rep_buf, Buf.ofList_read hi hc]

theorem clear_rep {cap : Nat} {xs : List α} (hc : xs.length ≤ cap) :
    clear (rep cap xs) = .ok () (rep cap []) := by
  simp [clear]
  rw [onBuf_rep (Buf.ofList_destroyAll hc)]
  simp [rep, Buf.ofList_nil]

theorem emplaceAt_rep {cap : Nat} {xs : List α} {a : α} (hc : xs.length < cap) :
    emplaceAt xs.length a (rep cap xs) = .ok () ⟨Buf.ofList cap (xs ++ [a]), xs.length, none⟩ := by
  simp [emplaceAt, rep_buf, Buf.ofList_construct hc]

theorem pushBack_rep {cap : Nat} {xs : List α} {v : Arg α} {a : α} (hv : Spec.argVal xs v = some a)
    (hc : xs.length < cap) : pushBack v (rep cap xs) = .ok () (rep cap (xs ++ [a])) := by
  have h1 : ¬ (cap ≤ xs.length) := by omega
  simp [pushBack, outOfRangeIf, h1, readArg_rep hv (Nat.le_of_lt hc), emplaceAt_rep hc]
  simp [rep]

theorem pushBack_full {cap : Nat} {xs : List α} {v : Arg α} (hc : cap ≤ xs.length) :
    pushBack v (rep cap xs) = .throw .outOfRange (rep cap xs) := by
  simp [pushBack, outOfRangeIf, hc]

theorem back_rep {cap : Nat} {xs : List α} (h : xs ≠ []) (hc : xs.length ≤ cap) :
    back (rep cap xs) = .ok (xs.getLast h) (rep cap xs) := by
  have : 0 < xs.length := List.length_pos_iff.mpr h
  simp [back, h, at_rep (show xs.length - 1 < xs.length by omega) hc, List.getLast_eq_getElem]

theorem emplaceBack_rep {cap : Nat} {xs : List α} {v : Arg α} {a : α} (hv : Spec.argVal xs v = some a)
    (hc : xs.length < cap) : emplaceBack v (rep cap xs) = .ok xs.length (rep cap (xs ++ [a])) := by
  have h1 : ¬ (cap ≤ xs.length) := by omega
  have h2 : (⟨Buf.ofList cap (xs ++ [a]), xs.length + 1, none⟩ : SV α) = rep cap (xs ++ [a]) := by simp [rep]
  simp [emplaceBack, outOfRangeIf, h1, readArg_rep hv (Nat.le_of_lt hc), emplaceAt_rep hc]
  rw [h2, back_rep (by simp) (by simp; omega)]

theorem emplaceBack_full {cap : Nat} {xs : List α} {v : Arg α} (hc : cap ≤ xs.length) :
    emplaceBack v (rep cap xs) = .throw .outOfRange (rep cap xs) := by
  simp [emplaceBack, outOfRangeIf, hc]

theorem emplaceBackMove_rep {cap : Nat} {xs : List α} {a : α}
    (hc : xs.length < cap) : emplaceBackMove a (rep cap xs) = .ok xs.length (rep cap (xs ++ [a])) := by
  have h1 : ¬ (cap ≤ xs.length) := by omega
  have h2 : (⟨Buf.ofList cap (xs ++ [a]), xs.length + 1, none⟩ : SV α) = rep cap (xs ++ [a]) := by simp [rep]
  simp [emplaceBackMove, outOfRangeIf, h1]
  rw [onBuf_rep (Buf.ofList_construct hc)]
  simp only
  rw [h2, back_rep (by simp) (by simp; omega)]

/-- after `grow_at`: `n` raw slots at `pos` -/
def gap (cap : Nat) (xs : List α) (pos n : Nat) : Buf α :=
  ⟨cap, fun i => if i < pos then (Buf.ofList cap xs).cells i
    else if i < pos + n then .raw else (Buf.ofList cap xs).cells (i - n)⟩

theorem growAt_rep (E : Elem α) {cap : Nat} {xs : List α} {pos n : Nat} (hp : pos ≤ xs.length)
    (hc : xs.length + n ≤ cap) (hcap : cap < sizeMod) :
    growAt E pos n (rep cap xs) = .ok pos ⟨gap cap xs pos n, xs.length + n, none⟩ := by
  have h1 : ¬ (cap < (xs.length + n) % sizeMod) := by
    rw [Nat.mod_eq_of_lt (by omega)]; omega
  by_cases hn : n = 0
  · subst hn
    simp only [Nat.add_zero] at h1
    simp [growAt, outOfRangeIf, h1, hp]
    simp only [rep, gap, SV.mk.injEq, and_self, and_true]
    ext i
    · rfl
    · simp only [Nat.add_zero, Nat.sub_zero]; split <;> simp_all
  · simp [growAt, outOfRangeIf, h1, hp, hn]
    have hsh := Buf.shiftUp_eq E.mv n pos (by omega) (xs.length - pos) (Buf.ofList cap xs)
      (by simp only [Buf.ofList_cap]; omega) ?_ ?_
    · rw [onBuf_rep (hsh)]
      simp only
      congr 2
      ext i
      · rfl
      · simp only [gap, Buf.ofList_cells]
        grind
    · intro i h1 h2
      exact ⟨xs[i]'(by omega), Buf.ofList_live (by omega)⟩
    · intro i h1 h2
      exact Buf.ofList_raw (by omega)

theorem growAt_full (E : Elem α) {cap : Nat} {xs : List α} {pos n : Nat}
    (hc : cap < xs.length + n) (hcap : xs.length + n < sizeMod) :
    growAt E pos n (rep cap xs) = .throw .outOfRange (rep cap xs) := by
  have h1 : cap < (xs.length + n) % sizeMod := by
    rw [Nat.mod_eq_of_lt (by omega)]; omega
  simp [growAt, outOfRangeIf, h1]

/-- the gap at `pos` of original width `n` after its first slots received `ys` -/
def gapFill (cap : Nat) (xs : List α) (pos n : Nat) (ys : List α) : Buf α :=
  ⟨cap, fun i => if i < pos then (Buf.ofList cap xs).cells i
    else if i < pos + n then (match ys[i - pos]? with | some a => .live a | none => .raw)
    else (Buf.ofList cap xs).cells (i - n)⟩

theorem gap_eq (cap : Nat) (xs : List α) (pos n : Nat) : gap cap xs pos n = gapFill cap xs pos n [] := by
  simp [gap, gapFill]

theorem gapFill_full {cap : Nat} {xs : List α} {pos : Nat} {ys : List α} (hp : pos ≤ xs.length) :
    gapFill cap xs pos ys.length ys = Buf.ofList cap (xs.take pos ++ ys ++ xs.drop pos) := by
  ext i
  · rfl
  · simp only [gapFill, Buf.ofList_cells]
    grind

theorem emplaceAt_gap {cap : Nat} {xs : List α} {pos n m : Nat} {ys : List α} {a : α} (hy : ys.length < n)
    (hc : xs.length + n ≤ cap) (hp : pos ≤ xs.length) :
    emplaceAt (pos + ys.length) a ⟨gapFill cap xs pos n ys, m, none⟩ =
      .ok () ⟨gapFill cap xs pos n (ys ++ [a]), m, none⟩ := by
  simp only [emplaceAt]
  rw [Buf.construct_raw (by simp only [gapFill]; omega) (by
    simp only [gapFill]
    rw [if_neg (by omega), if_pos (by omega)]
    simp)]
  simp only
  congr 2
  ext i
  · rfl
  · simp only [gapFill, Function.update_apply]
    grind

theorem copyLoop_gap {cap : Nat} {xs : List α} {pos n m : Nat} (hc : xs.length + n ≤ cap) (hp : pos ≤ xs.length) :
    ∀ (zs ys : List α), ys.length + zs.length ≤ n →
    copyLoop (pos + ys.length) zs ⟨gapFill cap xs pos n ys, m, none⟩ =
      .ok () ⟨gapFill cap xs pos n (ys ++ zs), m, none⟩ := by
  intro zs
  induction zs with
  | nil => intro ys _; simp [copyLoop]
  | cons z zs ih =>
    intro ys hl
    simp only [List.length_cons] at hl
    simp only [copyLoop, M.bind_apply]
    rw [emplaceAt_gap (by omega) hc hp]
    simp only
    have := ih (ys ++ [z]) (by simp; omega)
    simp only [List.length_append, List.length_singleton, List.append_assoc, List.singleton_append] at this
    rw [← Nat.add_assoc] at this
    exact this

theorem fillLoop_gap {cap : Nat} {xs : List α} {pos n m : Nat} {v : Arg α} {a : α}
    (hc : xs.length + n ≤ cap) (hp : pos ≤ xs.length)
    (hv : ∀ ys, readArg v ⟨gapFill cap xs pos n ys, m, none⟩ = .ok a ⟨gapFill cap xs pos n ys, m, none⟩) :
    ∀ (k : Nat) (ys : List α), ys.length + k ≤ n →
    fillLoop v (pos + ys.length) k ⟨gapFill cap xs pos n ys, m, none⟩ =
      .ok () ⟨gapFill cap xs pos n (ys ++ List.replicate k a), m, none⟩ := by
  intro k
  induction k with
  | zero => intro ys _; simp [fillLoop]
  | succ k ih =>
    intro ys hl
    simp only [fillLoop, M.bind_apply, hv]
    rw [emplaceAt_gap (by omega) hc hp]
    simp only
    have := ih (ys ++ [a]) (by simp; omega)
    simp only [List.length_append, List.length_singleton, List.append_assoc, List.singleton_append] at this
    rw [← Nat.add_assoc] at this
    rw [this, List.replicate_succ]

theorem readArg_gap {cap : Nat} {xs ys : List α} {pos n m : Nat} {v : Arg α} {a : α}
    (hv : Spec.argVal xs v = some a) (hs : Spec.Stable pos v) (hp : pos ≤ xs.length) (hc : xs.length + n ≤ cap) :
    readArg v ⟨gapFill cap xs pos n ys, m, none⟩ = .ok a ⟨gapFill cap xs pos n ys, m, none⟩ := by
  cases v with
  | val b => simp [Spec.argVal] at hv; simp [readArg, hv]
  | self i =>
    simp [Spec.argVal] at hv
    simp [Spec.Stable] at hs
    obtain ⟨hi, rfl⟩ := List.getElem?_eq_some_iff.mp hv
    simp only [readArg, M.load]
    rw [Buf.read_live (a := xs[i]) (by simp only [gapFill]; omega) (by simp [gapFill, hs, Buf.ofList_live hi])]

theorem insert_rep (E : Elem α) {cap : Nat} {xs : List α} {pos : Nat} {v : Arg α} {a : α}
    (hv : Spec.argVal xs v = some a) (hs : Spec.Stable pos v) (hp : pos ≤ xs.length) (hc : xs.length < cap)
    (hcap : cap < sizeMod) :
    insert E pos v (rep cap xs) = .ok pos (rep cap (xs.take pos ++ [a] ++ xs.drop pos)) := by
  simp only [insert, M.bind_apply]
  rw [growAt_rep E hp hc hcap]
  simp only [gap_eq]
  rw [readArg_gap hv hs hp hc]
  have := emplaceAt_gap (m := xs.length + 1) (a := a) (ys := []) (n := 1) (by simp) hc hp
  simp only [List.length_nil, Nat.add_zero] at this
  simp only [this, M.pure_apply]
  have h2 := gapFill_full (cap := cap) (ys := [a]) hp
  simp only [List.length_singleton] at h2
  simp only [List.nil_append, h2, rep]
  congr 2
  simp; omega

theorem insertN_rep (E : Elem α) {cap : Nat} {xs : List α} {pos n : Nat} {v : Arg α} {a : α}
    (hv : Spec.argVal xs v = some a) (hs : Spec.Stable pos v) (hp : pos ≤ xs.length) (hc : xs.length + n ≤ cap)
    (hcap : cap < sizeMod) :
    insertN E pos n v (rep cap xs) = .ok pos (rep cap (xs.take pos ++ List.replicate n a ++ xs.drop pos)) := by
  simp only [insertN, M.bind_apply]
  rw [growAt_rep E hp hc hcap]
  simp only [gap_eq]
  have := fillLoop_gap (m := xs.length + n) hc hp (fun ys => readArg_gap (ys := ys) hv hs hp hc) n [] (by simp)
  simp only [List.length_nil, Nat.add_zero] at this
  simp only [this, M.pure_apply]
  have h2 := gapFill_full (cap := cap) (ys := List.replicate n a) hp
  simp only [List.length_replicate] at h2
  simp only [List.nil_append, h2, rep]
  congr 2
  simp; omega

theorem insertRange_rep (E : Elem α) {cap : Nat} {xs ys : List α} {pos : Nat}
    (hp : pos ≤ xs.length) (hc : xs.length + ys.length ≤ cap) (hcap : cap < sizeMod) :
    insertRange E pos ys (rep cap xs) = .ok pos (rep cap (xs.take pos ++ ys ++ xs.drop pos)) := by
  simp only [insertRange, M.bind_apply]
  rw [growAt_rep E hp hc hcap]
  simp only [gap_eq]
  have := copyLoop_gap (m := xs.length + ys.length) hc hp ys [] (by simp)
  simp only [List.length_nil, Nat.add_zero] at this
  simp only [this, M.pure_apply]
  have h2 := gapFill_full (cap := cap) (ys := ys) hp
  simp only [List.nil_append, h2, rep]
  congr 2
  simp; omega

theorem shrinkAt_rep (E : Elem α) {cap : Nat} {xs : List α} {pos num : Nat} (hp : pos + num ≤ xs.length)
    (hc : xs.length ≤ cap) (hn : 0 < num) :
    shrinkAt E pos num (rep cap xs) =
      .ok (if num = xs.length then 0 else pos) (rep cap (xs.take pos ++ xs.drop (pos + num))) := by
  have h1 : ¬ (xs.length < num) := by omega
  have h2 : pos ≤ xs.length := by omega
  simp only [shrinkAt, M.bind_apply, M.get_apply, rep_size, outOfRangeIf, gt_iff_lt, h1, if_false, M.pure_apply, h2,
    if_true]
  by_cases h3 : xs.length - num = 0
  · have h4 : num = xs.length := by omega
    have h5 : pos = 0 := by omega
    simp [h4, h5, clear_rep hc]
  · have h4 : num ≠ xs.length := by omega
    simp only [h3, if_false, h4, M.bind_apply, rep_cap]
    obtain ⟨c, hc1, hc2, hc3⟩ := Buf.shiftDown_eq E.mv num hn (xs.length - pos - num) (cap + 1) pos (Buf.ofList cap xs)
      (by simp only [Buf.ofList_cap]; omega) (by omega) (by
        intro i h5 h6
        exact ⟨xs[i]'(by omega), Buf.ofList_live (by omega)⟩)
    rw [show pos + num + (xs.length - pos - num) = xs.length by omega] at hc1
    rw [onBuf_rep (hc1)]
    simp only [Buf.ofList_cap]
    have hd := Buf.destroyRange_eq num (xs.length - num) ⟨cap, c⟩ (by simp only; omega) (by
        intro i h5 h6
        exact hc3 i (by omega) (by omega))
    rw [onBuf_mk hd]
    simp only [M.modify_apply, rep_size, rep_tick, M.pure_apply, rep]
    congr 2
    · ext i
      · rfl
      · simp only
        have := hc2 i
        simp only [Buf.ofList_cells] at this ⊢
        grind
    · simp; omega

theorem popBack_rep (E : Elem α) {cap : Nat} {xs : List α} (h : xs ≠ []) (hc : xs.length ≤ cap) :
    popBack E (rep cap xs) = .ok () (rep cap xs.dropLast) := by
  have : 0 < xs.length := List.length_pos_iff.mpr h
  simp only [popBack, M.bind_apply, M.get_apply, rep_size]
  rw [shrinkAt_rep E (by omega) hc (by omega)]
  simp only [M.pure_apply]
  congr 2
  rw [show xs.length - 1 + 1 = xs.length by omega]
  simp [List.dropLast_eq_take]

theorem popBack_empty (E : Elem α) {cap : Nat} :
    popBack E (rep cap ([] : List α)) = .throw .outOfRange (rep cap []) := by
  simp [popBack, shrinkAt, outOfRangeIf]

theorem popLoop_rep (E : Elem α) {cap : Nat} (n : Nat) : ∀ (f : Nat) (xs : List α), xs.length ≤ cap →
    xs.length ≤ n + f → popLoop E n f (rep cap xs) = .ok () (rep cap (xs.take n)) := by
  intro f
  induction f with
  | zero =>
    intro xs hc hf
    have h1 : ¬ (n < xs.length) := by omega
    simp [popLoop, h1, List.take_of_length_le (show xs.length ≤ n by omega)]
  | succ f ih =>
    intro xs hc hf
    by_cases h : n < xs.length
    · have hx : xs ≠ [] := by intro e; simp [e] at h
      simp only [popLoop, M.bind_apply, M.get_apply, rep_size, gt_iff_lt, h, if_true]
      rw [popBack_rep E hx hc]
      simp only
      rw [ih _ (by simp; omega) (by simp; omega)]
      rw [List.dropLast_eq_take, List.take_take]
      congr 3; omega
    · simp [popLoop, h, List.take_of_length_le (show xs.length ≤ n by omega)]

theorem pushLoop_rep {cap : Nat} {v : Arg α} {a : α} (n : Nat) (hn : n ≤ cap) : ∀ (f : Nat) (xs : List α),
    xs.length ≤ cap → n ≤ xs.length + f → (xs.length < n → Spec.argVal xs v = some a) →
    pushLoop v n f (rep cap xs) = .ok () (rep cap (xs ++ List.replicate (n - xs.length) a)) := by
  intro f
  induction f with
  | zero =>
    intro xs hc hf hv
    have h1 : ¬ (xs.length < n) := by omega
    have h2 : n - xs.length = 0 := by omega
    simp [pushLoop, h1, h2]
  | succ f ih =>
    intro xs hc hf hv
    by_cases h : xs.length < n
    · simp only [pushLoop, M.bind_apply, M.get_apply, rep_size, gt_iff_lt, h, if_true]
      rw [pushBack_rep (hv h) (by omega)]
      simp only
      rw [ih _ (by simp; omega) (by simp; omega)]
      · congr 2
        simp only [List.length_append, List.length_singleton, List.append_assoc, List.append_cancel_left_eq]
        rw [show n - xs.length = (n - (xs.length + 1)) + 1 by omega, List.replicate_succ]
        rfl
      · intro _
        have := hv h
        cases v with
        | val b => simpa [Spec.argVal] using this
        | self i =>
          simp only [Spec.argVal] at this ⊢
          obtain ⟨hi, rfl⟩ := List.getElem?_eq_some_iff.mp this
          simp [List.getElem?_append_left hi]
    · have h2 : n - xs.length = 0 := by omega
      simp [pushLoop, h, h2]

theorem resizeV_rep (E : Elem α) {cap n : Nat} {xs : List α} {v : Arg α} {a : α}
    (hv : Spec.argVal xs v = some a) (hc : xs.length ≤ cap) (hn : n ≤ cap) :
    resizeV E n v (rep cap xs) = .ok () (rep cap (xs.take n ++ List.replicate (n - xs.length) a)) := by
  have h1 : ¬ (cap < n) := by omega
  simp only [resizeV, M.bind_apply, M.get_apply, rep_cap, outOfRangeIf, gt_iff_lt, h1, if_false, M.pure_apply, rep_size]
  rw [popLoop_rep E n _ _ hc (by omega)]
  simp only
  rw [pushLoop_rep (a := a) n hn _ _ (by simp; omega) (by omega)]
  · by_cases h : n ≤ xs.length
    · have e1 : n - (xs.take n).length = 0 := by simp; omega
      have e2 : n - xs.length = 0 := by omega
      rw [e1, e2]
    · have e1 : xs.take n = xs := List.take_of_length_le (by omega)
      rw [e1]
  · intro h
    have e1 : xs.take n = xs := List.take_of_length_le (by simp at h; omega)
    rw [e1, hv]

theorem resizeV_full (E : Elem α) {cap n : Nat} {xs : List α} {v : Arg α} (hn : cap < n) :
    resizeV E n v (rep cap xs) = .throw .outOfRange (rep cap xs) := by
  simp [resizeV, outOfRangeIf, hn]

theorem pushAll_rep {cap : Nat} : ∀ (ys xs : List α), xs.length + ys.length ≤ cap →
    pushAll ys (rep cap xs) = .ok () (rep cap (xs ++ ys)) := by
  intro ys
  induction ys with
  | nil => intro xs _; simp [pushAll]
  | cons y ys ih =>
    intro xs h
    simp only [List.length_cons] at h
    simp only [pushAll, M.bind_apply]
    rw [pushBack_rep (a := y) (by simp [Spec.argVal]) (by omega)]
    simp only
    rw [ih _ (by simp; omega)]
    simp

theorem pushN_rep {cap : Nat} {a : α} : ∀ (k : Nat) (xs : List α), xs.length + k ≤ cap →
    pushN (.val a) k (rep cap xs) = .ok () (rep cap (xs ++ List.replicate k a)) := by
  intro k
  induction k with
  | zero => intro xs _; simp [pushN]
  | succ k ih =>
    intro xs h
    simp only [pushN, M.bind_apply]
    rw [pushBack_rep (a := a) (by simp [Spec.argVal]) (by omega)]
    simp only
    rw [ih _ (by simp; omega)]
    simp [List.replicate_succ]

theorem assignImplVal_rep {cap n : Nat} {a : α} (hn : n ≤ cap) :
    assignImplVal n (.val a) (rep cap []) = .ok () (rep cap (List.replicate n a)) := by
  have h1 : ¬ (cap < n) := by omega
  simp [assignImplVal, outOfRangeIf, h1]
  rw [pushN_rep _ _ (by simpa using hn)]
  simp

theorem assignImplRange_rep {cap : Nat} {ys : List α} (hn : ys.length ≤ cap) :
    assignImplRange ys (rep cap []) = .ok () (rep cap ys) := by
  have h1 : ¬ (cap < ys.length) := by omega
  simp [assignImplRange, outOfRangeIf, h1]
  rw [pushAll_rep _ _ (by simpa using hn)]
  simp

theorem assignN_rep {cap n : Nat} {xs : List α} {a : α} (hc : xs.length ≤ cap) (hn : n ≤ cap) :
    assignN n (.val a) (rep cap xs) = .ok () (rep cap (List.replicate n a)) := by
  simp [assignN, clear_rep hc, assignImplVal_rep hn]

theorem assignRange_rep {cap : Nat} {xs ys : List α} (hc : xs.length ≤ cap) (hn : ys.length ≤ cap) :
    assignRange ys (rep cap xs) = .ok () (rep cap ys) := by
  simp [assignRange, clear_rep hc, assignImplRange_rep hn]

theorem ofList_assign' {cap : Nat} {xs : List α} {i : Nat} {a : α} (h : i < xs.length) (hc : xs.length ≤ cap) :
    (Buf.ofList cap xs).assign i a = some (Buf.ofList cap (xs.set i a)) := by
  rw [Buf.assign_live (by simp only [Buf.ofList_cap]; omega) (Buf.ofList_live h)]
  congr 1
  refine Buf.ext' rfl fun j => ?_
  simp only [Buf.ofList_cells, List.getElem?_set, Function.update_apply]
  by_cases hj : j = i
  · subst hj; simp [h]
  · simp [hj, Ne.symm hj]

theorem setAt_rep {cap : Nat} {xs : List α} {i : Nat} {v : Arg α} {a : α} (hv : Spec.argVal xs v = some a)
    (h : i < xs.length) (hc : xs.length ≤ cap) : setAt i v (rep cap xs) = .ok () (rep cap (xs.set i a)) := by
  simp only [setAt, M.bind_apply, readArg_rep hv hc, at_rep h hc, onBuf_rep (ofList_assign' h hc)]
  simp [rep]

theorem moveElem_rep (E : Elem α) {cap : Nat} {xs : List α} {i j : Nat} {a : α} (ha : xs[j]? = some a)
    (h : i < xs.length) (hij : i ≠ j) (hc : xs.length ≤ cap) :
    moveElem E i j (rep cap xs) = .ok () (rep cap ((xs.set i a).set j (E.mv a))) := by
  obtain ⟨hj, rfl⟩ := List.getElem?_eq_some_iff.mp ha
  simp only [moveElem, M.bind_apply, at_rep h hc, at_rep hj hc, hij, if_false, onBuf_rep (ofList_assign' h hc)]
  rw [onBuf_mk (ofList_assign' (by simpa using hj) (by simpa using hc))]
  simp [rep]

theorem readUp_rep {cap : Nat} {xs : List α} (hc : xs.length ≤ cap) : ∀ (k p : Nat), p + k = xs.length →
    readUp p k (rep cap xs) = .ok (xs.drop p) (rep cap xs) := by
  intro k
  induction k with
  | zero => intro p h; simp [readUp, List.drop_of_length_le (show xs.length ≤ p by omega)]
  | succ k ih =>
    intro p h
    have hp : p < xs.length := by omega
    simp only [readUp, M.bind_apply, M.load, rep_buf, Buf.ofList_read hp hc, ih (p+1) (by omega), M.pure_apply]
    rw [← List.drop_eq_getElem_cons hp]

theorem readDown_rep {cap : Nat} {xs : List α} (hc : xs.length ≤ cap) : ∀ (p : Nat), p ≤ xs.length →
    readDown p (rep cap xs) = .ok (xs.take p).reverse (rep cap xs) := by
  intro p
  induction p with
  | zero => intro _; simp [readDown]
  | succ p ih =>
    intro h
    have hp : p < xs.length := by omega
    simp only [readDown, M.bind_apply, M.load, rep_buf, Buf.ofList_read hp hc, ih (by omega), M.pure_apply]
    rw [List.take_succ_eq_append_getElem hp, List.reverse_append, List.reverse_singleton, List.singleton_append]

end Itlib.StaticVector
