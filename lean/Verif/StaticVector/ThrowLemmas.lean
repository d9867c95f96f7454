import Verif.StaticVector.Ticks

/-! # Calls of `static_vector` in which an element throws (proof engineering) -/
namespace Itlib.StaticVector
open Itlib Spec
variable {α β : Type}

/-- use of a frame: a run that returns -/
theorem Frame.ok {f : M (SV α) β} {s t : SV α} {n : Nat} {b : β} (hf : Frame f s n) (h : f s.er = .ok b t)
    {c : Option Nat} (hc : Enough c n) : f (s.tk c) = .ok b (t.tk (spend c n)) := by
  have := hf.run c hc
  rw [h] at this
  exact this.1

/-- a run that throws something else -/
theorem Frame.throw {f : M (SV α) β} {s t : SV α} {n : Nat} {e : Exc} (hf : Frame f s n) (h : f s.er = .throw e t)
    {c : Option Nat} (hc : Enough c n) : ∃ c', f (s.tk c) = .throw e (t.tk c') := by
  have := hf.run c hc
  rw [h] at this
  exact this

theorem emplaceAt_zero {b b' : Buf α} {i n : Nat} {a : α} (h : b.construct i a = some b') :
    emplaceAt i a ⟨b, n, some 0⟩ = .throw .element ⟨b, n, none⟩ := by
  simp [emplaceAt, h]

theorem emplaceAt_succ {b b' : Buf α} {i n k : Nat} {a : α} (h : b.construct i a = some b') :
    emplaceAt i a ⟨b, n, some (k + 1)⟩ = .ok () ⟨b', n, some k⟩ := by
  simp [emplaceAt, h]

theorem pushBack_zero {cap : Nat} {xs : List α} {v : Arg α} {a : α} (hv : argVal xs v = some a)
    (hc : xs.length < cap) : pushBack v ((rep cap xs).tk (some 0)) = .throw .element (rep cap xs) := by
  have h1 : ¬ (cap ≤ xs.length) := by omega
  have h2 := (readArg_frame (rep cap xs) v).ok (readArg_rep hv (Nat.le_of_lt hc)) (c := some 0) (enough_zero _)
  simp only [spend_zero] at h2
  simp only [pushBack, M.bind_apply, M.get_apply, outOfRangeIf, tk_size, rep_size, tk_buf, rep_cap, h1, ge_iff_le,
    if_false, M.pure_apply, h2]
  have h3 : emplaceAt xs.length a ((rep cap xs).tk (some 0)) = .throw .element (rep cap xs) :=
    emplaceAt_zero (Buf.ofList_construct hc)
  rw [h3]

theorem pushBack_succ {cap k : Nat} {xs : List α} {v : Arg α} {a : α} (hv : argVal xs v = some a)
    (hc : xs.length < cap) :
    pushBack v ((rep cap xs).tk (some (k + 1))) = .ok () ((rep cap (xs ++ [a])).tk (some k)) :=
  (pushBack_frame (rep cap xs) v).ok (pushBack_rep hv hc) (c := some (k + 1)) (by simp [Enough])

theorem emplaceBack_zero {cap : Nat} {xs : List α} {v : Arg α} {a : α} (hv : argVal xs v = some a)
    (hc : xs.length < cap) : emplaceBack v ((rep cap xs).tk (some 0)) = .throw .element (rep cap xs) := by
  have h1 : ¬ (cap ≤ xs.length) := by omega
  have h2 := (readArg_frame (rep cap xs) v).ok (readArg_rep hv (Nat.le_of_lt hc)) (c := some 0) (enough_zero _)
  simp only [spend_zero] at h2
  simp only [emplaceBack, M.bind_apply, M.get_apply, outOfRangeIf, tk_size, rep_size, tk_buf, rep_cap, h1, ge_iff_le,
    if_false, M.pure_apply, h2]
  have h3 : emplaceAt xs.length a ((rep cap xs).tk (some 0)) = .throw .element (rep cap xs) :=
    emplaceAt_zero (Buf.ofList_construct hc)
  rw [h3]

theorem pushN_fault {cap : Nat} {a : α} : ∀ (k j : Nat) (xs : List α), k < j → xs.length + j ≤ cap →
    pushN (.val a) j ((rep cap xs).tk (some k)) = .throw .element (rep cap (xs ++ List.replicate k a)) := by
  intro k
  induction k with
  | zero =>
    intro j xs hj hc
    obtain ⟨j, rfl⟩ : ∃ n, j = n + 1 := ⟨j - 1, by omega⟩
    simp only [pushN, M.bind_apply, pushBack_zero (v := .val a) (a := a) rfl (show xs.length < cap by omega),
      List.replicate_zero, List.append_nil]
  | succ k ih =>
    intro j xs hj hc
    obtain ⟨j, rfl⟩ : ∃ n, j = n + 1 := ⟨j - 1, by omega⟩
    simp only [pushN, M.bind_apply, pushBack_succ (v := .val a) (a := a) rfl (show xs.length < cap by omega)]
    rw [ih j (xs ++ [a]) (by omega) (by simp; omega)]
    simp [List.replicate_succ]

theorem pushAll_fault {cap : Nat} : ∀ (ys : List α) (k : Nat) (xs : List α), k < ys.length → xs.length + ys.length ≤ cap →
    pushAll ys ((rep cap xs).tk (some k)) = .throw .element (rep cap (xs ++ ys.take k)) := by
  intro ys
  induction ys with
  | nil => intro k xs hk; simp at hk
  | cons y ys ih =>
    intro k xs hk hc
    simp only [List.length_cons] at hk hc
    cases k with
    | zero =>
      simp only [pushAll, M.bind_apply, pushBack_zero (v := .val y) (a := y) rfl (show xs.length < cap by omega),
        List.take_zero, List.append_nil]
    | succ k =>
      simp only [pushAll, M.bind_apply, pushBack_succ (v := .val y) (a := y) rfl (show xs.length < cap by omega)]
      rw [ih k (xs ++ [y]) (by omega) (by simp; omega)]
      simp

theorem pushLoop_fault {cap n : Nat} {v : Arg α} {a : α} (hn : n ≤ cap) : ∀ (k f : Nat) (xs : List α),
    argVal xs v = some a → xs.length + k < n → n ≤ xs.length + f →
    pushLoop v n f ((rep cap xs).tk (some k)) = .throw .element (rep cap (xs ++ List.replicate k a)) := by
  intro k
  induction k with
  | zero =>
    intro f xs ha hk hf
    obtain ⟨f, rfl⟩ : ∃ n, f = n + 1 := ⟨f - 1, by omega⟩
    simp only [pushLoop, M.bind_apply, M.get_apply, tk_size, rep_size, gt_iff_lt, show xs.length < n by omega, if_true,
      pushBack_zero ha (show xs.length < cap by omega), List.replicate_zero, List.append_nil]
  | succ k ih =>
    intro f xs ha hk hf
    obtain ⟨f, rfl⟩ : ∃ n, f = n + 1 := ⟨f - 1, by omega⟩
    simp only [pushLoop, M.bind_apply, M.get_apply, tk_size, rep_size, gt_iff_lt, show xs.length < n by omega, if_true,
      pushBack_succ ha (show xs.length < cap by omega)]
    have ha' : argVal (xs ++ [a]) v = some a := by
      cases v with
      | val b => exact ha
      | self i =>
        simp only [argVal] at ha ⊢
        rw [List.getElem?_append_left (List.getElem?_eq_some_iff.mp ha).1]
        exact ha
    rw [ih f (xs ++ [a]) ha' (by simp; omega) (by simp; omega)]
    simp [List.replicate_succ]

theorem resizeV_fault (E : Elem α) {cap n k : Nat} {v : Arg α} {a : α} {xs : List α} (hc : xs.length ≤ cap) (hn : n ≤ cap)
    (ha : argVal xs v = some a) (hk : k < n - xs.length) :
    resizeV E n v ((rep cap xs).tk (some k)) = .throw .element (rep cap (xs ++ List.replicate k a)) := by
  have h1 := (popLoop_frame E n xs.length (rep cap xs)).ok (popLoop_rep E n _ xs hc (by omega)) (c := some k) (enough_zero _)
  rw [List.take_of_length_le (by omega), spend_zero] at h1
  simp only [resizeV, M.bind_apply, M.get_apply, tk_size, rep_size, tk_buf, rep_cap, outOfRangeIf, gt_iff_lt,
    show ¬ cap < n by omega, if_false, M.pure_apply, h1]
  exact pushLoop_fault hn k n xs ha (by omega) (by omega)

theorem clear_tick {cap : Nat} {xs : List α} (hc : xs.length ≤ cap) (c : Option Nat) :
    clear ((rep cap xs).tk c) = .ok () ((rep cap []).tk c) := by
  have := (clear_frame (rep cap xs)).ok (clear_rep hc) (c := c) (enough_zero _)
  rwa [spend_zero] at this

theorem assignImplVal_fault {cap n k : Nat} {a : α} (hn : n ≤ cap) (hk : k < n) :
    assignImplVal n (.val a) ((rep cap []).tk (some k)) = .throw .element (rep cap (List.replicate k a)) := by
  simp only [assignImplVal, M.bind_apply, M.get_apply, tk_buf, rep_cap, outOfRangeIf, gt_iff_lt,
    show ¬ cap < n by omega, if_false, M.pure_apply]
  rw [pushN_fault k n [] hk (by simpa using hn)]
  simp

theorem assignImplRange_fault {cap k : Nat} {ys : List α} (hn : ys.length ≤ cap) (hk : k < ys.length) :
    assignImplRange ys ((rep cap []).tk (some k)) = .throw .element (rep cap (ys.take k)) := by
  simp only [assignImplRange, M.bind_apply, M.get_apply, tk_buf, rep_cap, outOfRangeIf, gt_iff_lt,
    show ¬ cap < ys.length by omega, if_false, M.pure_apply]
  rw [pushAll_fault ys k [] hk (by simpa using hn)]
  simp

/-! ### Insertion: the gap -/

theorem construct_gap {cap : Nat} {xs : List α} {pos n : Nat} {ys : List α} {a : α} (hy : ys.length < n)
    (hc : xs.length + n ≤ cap) (hp : pos ≤ xs.length) :
    (gapFill cap xs pos n ys).construct (pos + ys.length) a = some (gapFill cap xs pos n (ys ++ [a])) := by
  have := emplaceAt_gap (m := 0) (a := a) hy hc hp
  simp only [emplaceAt] at this
  revert this
  cases (gapFill cap xs pos n ys).construct (pos + ys.length) a <;> simp

theorem copyLoop_fault {cap : Nat} {xs : List α} {pos n m : Nat} (hc : xs.length + n ≤ cap) (hp : pos ≤ xs.length) :
    ∀ (zs ys : List α) (k : Nat), k < zs.length → ys.length + zs.length ≤ n →
    copyLoop (pos + ys.length) zs ⟨gapFill cap xs pos n ys, m, some k⟩ =
      .throw .element ⟨gapFill cap xs pos n (ys ++ zs.take k), m, none⟩ := by
  intro zs
  induction zs with
  | nil => intro ys k hk; simp at hk
  | cons z zs ih =>
    intro ys k hk hl
    simp only [List.length_cons] at hk hl
    have h1 := construct_gap (a := z) (show ys.length < n by omega) hc hp
    simp only [copyLoop, M.bind_apply]
    cases k with
    | zero => simp only [emplaceAt_zero h1, List.take_zero, List.append_nil]
    | succ k =>
      simp only [emplaceAt_succ h1]
      have := ih (ys ++ [z]) k (by omega) (by simp; omega)
      simp only [List.length_append, List.length_singleton, List.append_assoc, List.singleton_append] at this
      rw [← Nat.add_assoc] at this
      exact this

theorem readArg_gap_tick {cap : Nat} {xs ys : List α} {pos n m : Nat} {v : Arg α} {a : α} (c : Option Nat)
    (hv : argVal xs v = some a) (hs : Stable pos v) (hp : pos ≤ xs.length) (hc : xs.length + n ≤ cap) :
    readArg v ⟨gapFill cap xs pos n ys, m, c⟩ = .ok a ⟨gapFill cap xs pos n ys, m, c⟩ := by
  have := (readArg_frame ⟨gapFill cap xs pos n ys, m, none⟩ v).ok (readArg_gap hv hs hp hc) (c := c) (enough_zero _)
  rwa [spend_zero] at this

theorem fillLoop_fault {cap : Nat} {xs : List α} {pos n m : Nat} {v : Arg α} {a : α}
    (hc : xs.length + n ≤ cap) (hp : pos ≤ xs.length) (hv : argVal xs v = some a) (hs : Stable pos v) :
    ∀ (k j : Nat) (ys : List α), k < j → ys.length + j ≤ n →
    fillLoop v (pos + ys.length) j ⟨gapFill cap xs pos n ys, m, some k⟩ =
      .throw .element ⟨gapFill cap xs pos n (ys ++ List.replicate k a), m, none⟩ := by
  intro k
  induction k with
  | zero =>
    intro j ys hj hl
    obtain ⟨j, rfl⟩ : ∃ n, j = n + 1 := ⟨j - 1, by omega⟩
    have h1 := construct_gap (a := a) (show ys.length < n by omega) hc hp
    simp only [fillLoop, M.bind_apply, readArg_gap_tick _ hv hs hp hc, emplaceAt_zero h1, List.replicate_zero, List.append_nil]
  | succ k ih =>
    intro j ys hj hl
    obtain ⟨j, rfl⟩ : ∃ n, j = n + 1 := ⟨j - 1, by omega⟩
    have h1 := construct_gap (a := a) (show ys.length < n by omega) hc hp
    simp only [fillLoop, M.bind_apply, readArg_gap_tick _ hv hs hp hc, emplaceAt_succ h1]
    have := ih j (ys ++ [a]) (by omega) (by simp; omega)
    simp only [List.length_append, List.length_singleton, List.append_assoc, List.singleton_append] at this
    rw [← Nat.add_assoc] at this
    rw [this, List.replicate_succ]

theorem destroyRange_dead : ∀ (k pos q : Nat) (b : Buf α), pos ≤ q → q < pos + k → b.cells q = .raw →
    b.destroyRange pos k = none := by
  intro k
  induction k with
  | zero => intro pos q b h1 h2; omega
  | succ k ih =>
    intro p q b h1 h2 h3
    simp only [Buf.destroyRange, Buf.destroy]
    by_cases hpb : p < b.cap
    · simp only [hpb, if_true]
      by_cases hpp : p = q
      · subst hpp; simp [h3]
      · cases b.cells p with
        | raw => simp
        | live c =>
          simp only [Option.bind_eq_bind, Option.bind_some]
          exact ih _ q _ (by omega) (by omega) (by simp [Function.update_of_ne (Ne.symm hpp), h3])
    · simp [hpb]

/-- a vector left with a hole cannot be destroyed -/
theorem dtor_gap {cap pos n : Nat} {xs ys : List α} (hp : pos ≤ xs.length) (hy : ys.length < n) (c : Option Nat) :
    dtor (⟨gapFill cap xs pos n ys, xs.length + n, c⟩ : SV α) = .ub := by
  have h : (gapFill cap xs pos n ys).cells (pos + ys.length) = .raw := by
    simp only [gapFill]
    rw [if_neg (by omega), if_pos (by omega)]
    simp
  have := destroyRange_dead (xs.length + n) 0 (pos + ys.length) (gapFill cap xs pos n ys) (by omega) (by omega) h
  simp [dtor, clear, onBuf, M.mem, this]

theorem growAt_tick (E : Elem α) {cap : Nat} {xs : List α} {pos n : Nat} (hp : pos ≤ xs.length)
    (hc : xs.length + n ≤ cap) (hcap : cap < sizeMod) (c : Option Nat) :
    growAt E pos n ((rep cap xs).tk c) = .ok pos ⟨gapFill cap xs pos n [], xs.length + n, c⟩ := by
  have := (growAt_frame (rep cap xs) E pos n).ok (growAt_rep E hp hc hcap) (c := c) (enough_zero _)
  rw [spend_zero, gap_eq] at this
  exact this

/-! ### Calls -/

/-- a call in which no element throws -/
theorem exec_enough (E : Elem α) {cap : Nat} {op : Op α} {xs xs' : List α} {r : Reply α} {c : Option Nat} (hcap : cap < 2 ^ 63)
    (hc : xs.length ≤ cap) (hs : Safe cap op xs) (h : step cap E op xs = some (r, xs'))
    (he : Enough c (made cap op xs)) :
    (exec E op ((rep cap xs).tk c) = .ok r ((rep cap xs').tk (spend c (made cap op xs)))) ∨
    (∃ e c', r = .exc e ∧ exec E op ((rep cap xs).tk c) = .throw e ((rep cap xs').tk c')) := by
  have hf := exec_frame E hcap hc hs (by rw [h]; rfl)
  have h1 := call_rep E hcap hc hs h
  simp only [call] at h1
  cases h2 : exec E op (rep cap xs) with
  | ok b t =>
    rw [h2] at h1
    simp only [Option.some.injEq, Prod.mk.injEq] at h1
    obtain ⟨rfl, rfl⟩ := h1
    exact Or.inl (hf.ok h2 he)
  | throw e t =>
    rw [h2] at h1
    simp only [Option.some.injEq, Prod.mk.injEq] at h1
    obtain ⟨rfl, rfl⟩ := h1
    obtain ⟨c', h3⟩ := hf.throw h2 he
    exact Or.inr ⟨e, c', rfl, h3⟩
  | ub => rw [h2] at h1; simp at h1

/-- a call in which an element throws -/
theorem exec_fault (E : Elem α) {cap k : Nat} {op : Op α} {xs : List α} (hcap : cap < 2 ^ 63)
    (hc : xs.length ≤ cap) (hs : Safe cap op xs) (h : (step cap E op xs).isSome) (hk : k < made cap op xs) :
    ∃ s', exec E op ((rep cap xs).tk (some k)) = .throw .element s' ∧
      match tstep cap E (some k) op xs with
      | some (r, xs') => r = .exc .element ∧ s' = rep cap xs' ∧ xs'.length ≤ cap
      | none => dtor (s'.tk none) = .ub := by
  have hm : cap < sizeMod := by simp only [sizeMod]; omega
  obtain ⟨⟨r, zs⟩, hr⟩ := Option.isSome_iff_exists.mp h
  have hfault : fault (some k) (made cap op xs) = some k := by simp [fault, hk]
  simp only [tstep, hr, Option.bind_eq_bind, Option.bind_some, hfault]
  cases op with
  | pushBack v =>
    simp only [made] at hk
    split at hk
    · rename_i hl
      obtain rfl : k = 0 := by omega
      simp only [step, Option.bind_eq_bind, Option.bind_eq_some_iff] at hr
      obtain ⟨a, ha, -⟩ := hr
      exact ⟨rep cap xs, by simp only [exec, M.bind_apply, pushBack_zero ha hl], rfl, rfl, hc⟩
    · omega
  | emplaceBack v =>
    simp only [made] at hk
    split at hk
    · rename_i hl
      obtain rfl : k = 0 := by omega
      simp only [step, Option.bind_eq_bind, Option.bind_eq_some_iff] at hr
      obtain ⟨a, ha, -⟩ := hr
      exact ⟨rep cap xs, by simp only [exec, M.bind_apply, emplaceBack_zero ha hl], rfl, rfl, hc⟩
    · omega
  | insert pos v =>
    simp only [made] at hk
    split at hk
    · rename_i hl
      obtain rfl : k = 0 := by omega
      simp only [step, Option.bind_eq_bind, Option.bind_eq_some_iff] at hr
      obtain ⟨a, ha, hr⟩ := hr
      have hp : pos ≤ xs.length := by
        apply Classical.byContradiction
        intro h
        simp [h] at hr
      have h1 := construct_gap (ys := []) (a := a) (show 0 < 1 by omega) (show xs.length + 1 ≤ cap by omega) hp
      simp only [List.length_nil, Nat.add_zero] at h1
      refine ⟨⟨gapFill cap xs pos 1 [], xs.length + 1, none⟩, ?_, dtor_gap (n := 1) (ys := []) hp (by simp) none⟩
      simp only [exec, insert, M.bind_apply, growAt_tick E hp (show xs.length + 1 ≤ cap by omega) hm,
        readArg_gap_tick (some 0) ha (hs hl) hp (show xs.length + 1 ≤ cap by omega), emplaceAt_zero h1]
    · omega
  | insertN pos n v =>
    simp only [made] at hk
    split at hk
    · rename_i hl
      simp only [step, Option.bind_eq_bind, Option.bind_eq_some_iff] at hr
      obtain ⟨a, ha, hr⟩ := hr
      have hp : pos ≤ xs.length := by
        apply Classical.byContradiction
        intro h
        simp [h] at hr
      have hst : Stable pos v := by
        rcases hs.2 with h | h | h
        · omega
        · omega
        · exact h
      have h1 := fillLoop_fault (m := xs.length + n) hl hp ha hst k n [] hk (by simp)
      simp only [List.length_nil, Nat.add_zero, List.nil_append] at h1
      refine ⟨⟨gapFill cap xs pos n (List.replicate k a), xs.length + n, none⟩, ?_, dtor_gap (n := n) (ys := List.replicate k a) (cap := cap) hp (by simpa using hk) none⟩
      simp only [exec, insertN, M.bind_apply, growAt_tick E hp hl hm, h1]
    · omega
  | insertRange pos ys =>
    simp only [made] at hk
    split at hk
    · rename_i hl
      simp only [step] at hr
      have hp : pos ≤ xs.length := by
        apply Classical.byContradiction
        intro h
        simp [h] at hr
      have h1 := copyLoop_fault (m := xs.length + ys.length) hl hp ys [] k hk (by simp)
      simp only [List.length_nil, Nat.add_zero, List.nil_append] at h1
      refine ⟨⟨gapFill cap xs pos ys.length (ys.take k), xs.length + ys.length, none⟩, ?_, dtor_gap (n := ys.length) (ys := ys.take k) (cap := cap) hp (by simp; omega) none⟩
      simp only [exec, insertRange, M.bind_apply, growAt_tick E hp hl hm, h1]
    · omega
  | resize n =>
    simp only [made] at hk
    split at hk
    · rename_i hl
      simp only [step, if_pos hl, Option.some.injEq, Prod.mk.injEq] at hr
      obtain ⟨-, rfl⟩ := hr
      refine ⟨rep cap (xs ++ List.replicate k E.dflt), by
        simp only [exec, resize, M.bind_apply, resizeV_fault E (v := .val E.dflt) (a := E.dflt) hc hl rfl hk], rfl, ?_, ?_⟩
      · congr 1
        rw [List.take_append, List.take_of_length_le (by simp; omega), List.take_of_length_le (show xs.length ≤ n by omega),
          List.take_replicate]
        congr 2
        omega
      · simp; omega
    · omega
  | resizeV n v =>
    simp only [made] at hk
    split at hk
    · rename_i hl
      simp only [step, Option.bind_eq_bind, Option.bind_eq_some_iff, if_pos hl, Option.some.injEq, Prod.mk.injEq] at hr
      obtain ⟨a, ha, -, rfl⟩ := hr
      refine ⟨rep cap (xs ++ List.replicate k a), by
        simp only [exec, M.bind_apply, resizeV_fault E (a := a) hc hl ha hk], rfl, ?_, ?_⟩
      · congr 1
        rw [List.take_append, List.take_of_length_le (by simp; omega), List.take_of_length_le (show xs.length ≤ n by omega),
          List.take_replicate]
        congr 2
        omega
      · simp; omega
    · omega
  | assignN n v =>
    have hn : n ≤ cap := hs.1
    simp only [made, if_pos hn] at hk
    obtain ⟨b, rfl⟩ : ∃ b, v = .val b := by
      rcases hs.2 with h | h
      · omega
      · exact h
    simp only [step, argVal, Option.bind_eq_bind, Option.bind_some, if_pos hn, Option.some.injEq, Prod.mk.injEq] at hr
    obtain ⟨-, rfl⟩ := hr
    refine ⟨rep cap (List.replicate k b), by
      simp only [exec, assignN, M.bind_apply, clear_tick hc, assignImplVal_fault hn hk], rfl, ?_, ?_⟩
    · rw [List.take_replicate, Nat.min_eq_left (by omega)]
    · simp; omega
  | assignRange ys =>
    have hn : ys.length ≤ cap := hs
    simp only [made, if_pos hn] at hk
    simp only [step, if_pos hn, Option.some.injEq, Prod.mk.injEq] at hr
    obtain ⟨-, rfl⟩ := hr
    refine ⟨rep cap (ys.take k), by
      simp only [exec, assignRange, M.bind_apply, clear_tick hc, assignImplRange_fault hn hk], rfl, rfl, ?_⟩
    simp; omega
  | _ => simp [made] at hk

end Itlib.StaticVector
