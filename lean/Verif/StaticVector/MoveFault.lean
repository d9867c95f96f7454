import Verif.StaticVector.MoveLate

/-! # Moves that throw (proof engineering) -/
namespace Itlib.StaticVector
open Itlib Spec
variable {α β γ : Type}

theorem lift_ok {f : M (Store α) β} {st st' : Store α} {b : β} {m : Option Nat} (h : f st = .ok b st') :
    lift f ⟨st, m⟩ = .ok b ⟨st', m⟩ := by
  simp [lift, h]

theorem may_zero {bad good : M (Store α) Unit} {st st' : Store α} (h : bad st = .ok () st') :
    mayThrow bad good ⟨st, some 0⟩ = .throw .element ⟨st', none⟩ := by
  simp [mayThrow, lift, h]

theorem may_succ {bad good : M (Store α) Unit} {st st' : Store α} {k : Nat} (h : good st = .ok () st') :
    mayThrow bad good ⟨st, some (k+1)⟩ = .ok () ⟨st', some k⟩ := by
  simp [mayThrow, lift, h]

/-- use of `Late`: a run that returns -/
theorem Late.ok {f : M (MV α) β} {g : M (Store α) β} {st st' : Store α} {n k : Nat} {b : β} (h : Late f g st n)
    (hg : g st = .ok b st') : f ⟨st, some (n + k)⟩ = .ok b ⟨st', some k⟩ := by
  have := h (some (n + k)) (by simp [Enough])
  rw [hg] at this
  simpa [spend] using this

theorem tear_ok {T : Torn α} {i k : Nat} {st : Store α} {v : SV α} {a : α} (hv : st.vec i = some v) (hk : k < v.buf.cap)
    (ha : v.buf.cells k = .live a) :
    tear T i k st = .ok () (st.put i (some ⟨⟨v.buf.cap, Function.update v.buf.cells k (.live (T.src a))⟩, v.size, v.tick⟩)) := by
  simp only [tear, M.bind_apply]
  rw [at'_read hv (b := a) (by simp [M.load, Buf.read_live hk ha])]
  simp only
  rw [at'_ok hv (onBuf_eq (Buf.assign_live hk ha))]

theorem tear_rep {T : Torn α} {i k cap : Nat} {st : Store α} {xs : List α} (hv : st.vec i = some (rep cap xs))
    (hk : k < xs.length) (hc : xs.length ≤ cap) :
    tear T i k st = .ok () (st.put i (some (rep cap (xs.set k (T.src xs[k]))))) := by
  simp only [tear, M.bind_apply]
  rw [at'_read hv (b := xs[k]) (by simp [M.load, rep_buf, Buf.ofList_read hk hc])]
  simp only
  rw [at'_ok hv (assign_rep hk hc)]

theorem shiftUpT_add (E : Elem α) (T : Torn α) (i by_ pos a : Nat) : ∀ b : Nat,
    shiftUpT E T i by_ pos (a + b) = (shiftUpT E T i by_ (pos + a) b >>= fun _ => shiftUpT E T i by_ pos a) := by
  intro b
  induction b with
  | zero => rfl
  | succ b ih =>
    rw [← Nat.add_assoc]
    simp only [shiftUpT, ih, Nat.add_assoc]
    funext s
    simp only [M.bind_apply]
    cases mayThrow (tear T i (pos + (a + b))) (at' i (onBuf fun b_1 => Buf.moveConstruct E.mv (pos + (a + (b + by_))) (pos + (a + b)) b_1)) s with
    | ok x s' =>
      simp only
      cases lift (at' i (onBuf fun b_1 => Buf.destroy (pos + (a + b)) b_1)) s' <;> rfl
    | throw e s' => rfl
    | ub => rfl

theorem ofList_set {cap k : Nat} {xs : List α} (h : k < xs.length) (a : α) :
    (⟨cap, Function.update (Buf.ofList cap xs).cells k (.live a)⟩ : Buf α) = Buf.ofList cap (xs.set k a) := by
  ext q
  · rfl
  · simp only [Function.update_apply, Buf.ofList_cells]
    grind

/-- `grow_at` when a move throws -/
theorem growAtT_fault (E : Elem α) (T : Torn α) {i cap pos n k : Nat} {xs : List α} {st : Store α} {c : Option Nat}
    (hv : st.vec i = some ((rep cap xs).tk c)) (hn : 0 < n) (hc : xs.length + n ≤ cap) (hcap : cap < sizeMod)
    (hk : k < xs.length - pos) :
    ∃ v, growAtT E T i pos n ⟨st, some k⟩ = .throw .element ⟨st.put i (some v), none⟩ ∧
      if k = 0 then v = (rep cap (tornLast T xs)).tk c
      else v.size = xs.length ∧ ∃ q, q < xs.length ∧ v.buf.cells q = .raw := by
  have h1 : ¬ (cap < (xs.length + n) % sizeMod) := by
    rw [Nat.mod_eq_of_lt (by omega)]; omega
  have h2 : lift (at' i M.get) ⟨st, some k⟩ = .ok ((rep cap xs).tk c) ⟨st, some k⟩ := lift_ok (at'_get hv)
  have h3 : lift (at' i (outOfRangeIf ((((rep cap xs).tk c).size + n) % sizeMod > ((rep cap xs).tk c).buf.cap))) ⟨st, some k⟩ =
      .ok () ⟨st, some k⟩ :=
    lift_ok (at'_read hv (by simp [outOfRangeIf, h1]))
  have h4 := shiftUpT_add E T i n pos (xs.length - pos - k) k
  rw [show xs.length - pos - k + k = xs.length - pos by omega] at h4
  have key : ∀ v', shiftUpT E T i n (pos + (xs.length - pos - k)) k ⟨st, some k⟩ = .ok () ⟨st.put i (some v'), some 0⟩ →
      ∀ a, v'.buf.cells (xs.length - k - 1) = .live a → v'.buf.cap = cap →
      growAtT E T i pos n ⟨st, some k⟩ = .throw .element ⟨st.put i (some ⟨⟨v'.buf.cap,
        Function.update v'.buf.cells (xs.length - k - 1) (.live (T.src a))⟩, v'.size, v'.tick⟩), none⟩ := by
    intro v' hs a ha hcv
    have h5 : shiftUpT E T i n pos (xs.length - pos - k) ⟨st.put i (some v'), some 0⟩ = .throw .element ⟨st.put i (some ⟨⟨v'.buf.cap,
        Function.update v'.buf.cells (xs.length - k - 1) (.live (T.src a))⟩, v'.size, v'.tick⟩), none⟩ := by
      obtain ⟨r, hr⟩ : ∃ r, xs.length - pos - k = r + 1 := ⟨xs.length - pos - k - 1, by omega⟩
      rw [hr]
      simp only [shiftUpT, M.bind_apply]
      rw [may_zero (tear_ok (put_vec_self _ _ _) (by omega) (by rw [← ha]; congr 1; omega)), put_put,
        show pos + r = xs.length - k - 1 by omega]
    simp only [growAtT, M.bind_apply, h2]
    rw [h3]
    simp only [tk_size, rep_size]
    rw [if_pos (show pos ≤ xs.length by omega), if_neg (by omega)]
    simp only [M.bind_apply, h4, hs, h5]
  by_cases h0 : k = 0
  · subst h0
    have hl : xs ≠ [] := by rintro rfl; simp at hk
    have := key ((rep cap xs).tk c) (by rw [put_same _ hv]; rfl) _ (Buf.ofList_live (by omega)) rfl
    refine ⟨_, this, ?_⟩
    rw [if_pos rfl]
    have e : tornLast T xs = xs.set (xs.length - 1) (T.src (xs[xs.length - 1]'(by omega))) := by
      rw [tornLast, List.getLast?_eq_getElem?, List.getElem?_eq_getElem (by omega)]
      simp only
      rw [List.set_eq_take_append_cons_drop, if_pos (by omega), List.drop_of_length_le (by omega), List.dropLast_eq_take]
    rw [e]
    simp only [rep, SV.tk, List.length_set, SV.mk.injEq, and_true]
    exact ofList_set (by omega) _
  · have hsh := Buf.shiftUp_eq E.mv n (pos + (xs.length - pos - k)) hn k (Buf.ofList cap xs)
      (by simp only [Buf.ofList_cap]; omega)
      (fun i h1 h2 => ⟨xs[i]'(by omega), Buf.ofList_live (by omega)⟩)
      (fun i h1 h2 => Buf.ofList_raw (by omega))
    have h5 := (shiftUpT_late E T i n (pos + (xs.length - pos - k)) k st (by rw [hv]; rfl)).ok (k := 0)
      (at'_ok hv (onBuf_eq hsh))
    have := key _ h5 (xs[xs.length - k - 1]'(by omega)) (by
      simp only
      rw [if_neg (by omega), if_neg (by omega), Buf.ofList_live (by omega)]) rfl
    refine ⟨_, this, ?_⟩
    rw [if_neg h0]
    refine ⟨rfl, xs.length - k, by omega, ?_⟩
    simp only [Function.update_apply]
    rw [if_neg (by omega), if_neg (by omega), if_pos (by omega)]

theorem shiftDownT_fault (E : Elem α) (T : Torn α) {i num myend : Nat} (hn : 0 < num) : ∀ (k f p : Nat) (st : Store α) (v : SV α),
    st.vec i = some v → p + num + k < myend → myend ≤ v.buf.cap → k < f →
    (∀ q, p ≤ q → q < myend → ∃ a, v.buf.cells q = .live a) →
    ∃ v', shiftDownT E T i myend f p (p + num) ⟨st, some k⟩ = .throw .element ⟨st.put i (some v'), none⟩ ∧
      v'.size = v.size ∧ v'.buf.cells (p + k) = .raw := by
  intro k
  induction k with
  | zero =>
    intro f p st v hv hp hm hf hl
    obtain ⟨f, rfl⟩ : ∃ r, f = r + 1 := ⟨f - 1, by omega⟩
    obtain ⟨a, ha⟩ := hl p (by omega) (by omega)
    obtain ⟨b, hb⟩ := hl (p + num) (by omega) (by omega)
    rw [shiftDownT, if_neg (by omega)]
    simp only [M.bind_apply]
    rw [lift_ok (at'_ok hv (onBuf_eq (Buf.destroy_live (by omega) ha)))]
    simp only
    rw [may_zero (tear_ok (a := b) (put_vec_self _ _ _) (by simp only; omega) (by simp [Function.update_apply, hb]; omega))]
    refine ⟨⟨⟨v.buf.cap, Function.update (Function.update v.buf.cells p .raw) (p + num) (.live (T.src b))⟩, v.size, v.tick⟩,
      by rw [put_put], rfl, ?_⟩
    simp only [Function.update_apply, Nat.add_zero]
    rw [if_neg (by omega), if_pos trivial]
  | succ k ih =>
    intro f p st v hv hp hm hf hl
    obtain ⟨f, rfl⟩ : ∃ r, f = r + 1 := ⟨f - 1, by omega⟩
    obtain ⟨a, ha⟩ := hl p (by omega) (by omega)
    obtain ⟨b, hb⟩ := hl (p + num) (by omega) (by omega)
    rw [shiftDownT, if_neg (by omega)]
    simp only [M.bind_apply]
    rw [lift_ok (at'_ok hv (onBuf_eq (Buf.destroy_live (by omega) ha)))]
    simp only
    rw [may_succ (at'_ok (put_vec_self _ _ _) (onBuf_eq (Buf.moveConstruct_live (a := b) (by simp only; omega) (by simp only; omega)
      (by simp [Function.update_apply, hb]; omega) (by simp))))]
    simp only [put_put]
    obtain ⟨v', h1, h2, h3⟩ := ih f (p + 1) (st.put i (some ⟨⟨v.buf.cap, Function.update (Function.update
      (Function.update v.buf.cells p .raw) (p + num) (.live (E.mv b))) p (.live b)⟩, v.size, v.tick⟩)) _
      (put_vec_self _ _ _) (by omega) (by simpa using hm) (by omega) (by
      intro q h1 h2
      simp only [Function.update_apply]
      split
      · exact ⟨_, rfl⟩
      · split
        · exact ⟨_, rfl⟩
        · exact hl q (by omega) h2)
    rw [put_put, show p + 1 + num = p + num + 1 by omega] at h1
    exact ⟨v', h1, h2, by rw [← h3]; congr 1; omega⟩

/-- `shrink_at` when a move throws -/
theorem shrinkAtT_fault (E : Elem α) (T : Torn α) {i cap pos num k : Nat} {xs : List α} {st : Store α} {c : Option Nat}
    (hv : st.vec i = some ((rep cap xs).tk c)) (hn : 0 < num) (hc : xs.length ≤ cap)
    (hk : k < xs.length - (pos + num)) :
    ∃ v, shrinkAtT E T i pos num ⟨st, some k⟩ = .throw .element ⟨st.put i (some v), none⟩ ∧
      v.size = xs.length ∧ ∃ q, q < xs.length ∧ v.buf.cells q = .raw := by
  have h1 : ¬ (num > xs.length) := by omega
  have h2 : lift (at' i M.get) ⟨st, some k⟩ = .ok ((rep cap xs).tk c) ⟨st, some k⟩ := lift_ok (at'_get hv)
  have h3 : lift (at' i (outOfRangeIf (num > ((rep cap xs).tk c).size))) ⟨st, some k⟩ = .ok () ⟨st, some k⟩ :=
    lift_ok (at'_read hv (by simp [outOfRangeIf, h1]))
  obtain ⟨v', h4, h5, h6⟩ := shiftDownT_fault E T hn k (cap + 1) pos st _ hv (by omega) (myend := xs.length)
    (by simpa using hc) (by omega) (fun q h1 h2 => ⟨xs[q], Buf.ofList_live h2⟩)
  refine ⟨v', ?_, h5, pos + k, by omega, h6⟩
  simp only [shrinkAtT, M.bind_apply, h2]
  rw [h3]
  simp only [tk_size, rep_size, tk_buf, rep_cap]
  rw [if_pos (by omega), if_neg (by omega)]
  simp only [M.bind_apply, h4]

theorem dtor_dead {v : SV α} {q : Nat} (hq : q < v.size) (h : v.buf.cells q = .raw) : dtor v = .ub := by
  have := destroyRange_dead v.size 0 q v.buf (by omega) (by omega) h
  simp only [dtor, clear, M.bind_apply, M.get_apply, onBuf, M.mem, this, Option.map_none]

theorem destruct_dead {st : Store α} {i q : Nat} {v : SV α} (hv : st.vec i = some v) (hq : q < v.size)
    (h : v.buf.cells q = .raw) : destruct i (disarm st) = .ub := by
  have h1 : (disarm st).vec i = some (v.tk none) := by simp [disarm, hv]
  have h2 : dtor (v.tk none) = .ub := dtor_dead hq h
  simp only [destruct, M.bind_apply, at', h1, h2]

/-- the move loop when an element throws -/
theorem moveFromLoopT_fault (E : Elem α) (T : Torn α) {dst src cd cs : Nat} (hne : dst ≠ src) :
    ∀ (k p f : Nat) (xs ys : List α) (st : Store α), st.vec src = some (rep cs xs) → st.vec dst = some (rep cd ys) →
    p + f = xs.length → ys.length + f ≤ cd → xs.length ≤ cs → k < f →
    moveFromLoopT E T dst src p f ⟨st, some k⟩ = .throw .element
      ⟨(st.put dst (some (rep cd (ys ++ (xs.drop p).take k)))).put src (some (rep cs (xs.take p ++ torn E T k (xs.drop p)))), none⟩ := by
  intro k
  induction k with
  | zero =>
    intro p f xs ys st hs hd hp hc hcs hk
    obtain ⟨f, rfl⟩ : ∃ n, f = n + 1 := ⟨f - 1, by omega⟩
    have hpl : p < xs.length := by omega
    simp only [moveFromLoopT, M.bind_apply]
    rw [lift_ok (size_read hs)]
    simp only [rep_size]
    rw [if_neg (by omega)]
    simp only [M.bind_apply]
    rw [lift_ok (at'_read hs (at_rep hpl hcs))]
    simp only [emplaceMoveT]
    rw [may_zero (st' := st.put src (some (rep cs (xs.set p (T.src xs[p]))))) ?_]
    · simp only [List.take_zero, List.append_nil, put_same _ hd, torn, List.map_nil, List.nil_append]
      rw [List.drop_eq_getElem_cons hpl, List.set_eq_take_append_cons_drop, if_pos hpl]
      rfl
    · simp only [M.bind_apply, fullCheck]
      rw [at'_read hd (b := ()) (by simp [outOfRangeIf, show ¬ cd ≤ ys.length by omega])]
      exact tear_rep hs hpl hcs
  | succ k ih =>
    intro p f xs ys st hs hd hp hc hcs hk
    obtain ⟨f, rfl⟩ : ∃ n, f = n + 1 := ⟨f - 1, by omega⟩
    have hpl : p < xs.length := by omega
    simp only [moveFromLoopT, M.bind_apply]
    rw [lift_ok (size_read hs)]
    simp only [rep_size]
    rw [if_neg (by omega)]
    simp only [M.bind_apply]
    rw [lift_ok (at'_read hs (at_rep hpl hcs))]
    simp only [emplaceMoveT]
    rw [may_succ (st' := (st.put dst (some (rep cd (ys ++ [xs[p]])))).put src (some (rep cs (xs.set p (E.mv xs[p]))))) ?_]
    · simp only
      rw [ih (p+1) f (xs.set p (E.mv xs[p])) (ys ++ [xs[p]]) _ (put_vec_self _ _ _) (by rw [put_vec_ne _ _ hne]; simp)
        (by simp; omega) (by simp; omega) (by simpa using hcs) (by omega)]
      rw [put_comm _ _ _ hne.symm, put_put, put_put]
      have hdr : (xs.set p (E.mv xs[p])).drop (p+1) = xs.drop (p+1) := List.drop_set_of_lt (by omega)
      have htk : (xs.set p (E.mv xs[p])).take (p+1) = xs.take p ++ [E.mv xs[p]] := by
        rw [List.take_succ_eq_append_getElem (by simpa using hpl)]
        simp [List.take_set_of_le]
      rw [hdr, htk, List.drop_eq_getElem_cons hpl]
      simp only [List.append_assoc, List.nil_append, List.take_succ_cons, torn, List.map_cons, List.cons_append,
        List.drop_succ_cons]
    · simp only [M.bind_apply]
      rw [at'_ok hd (emplaceBackMove_rep (by omega))]
      simp only
      rw [at'_ok (v := rep cs xs) (by rw [put_vec_ne _ _ hne.symm]; exact hs) (assign_rep hpl hcs)]

theorem swapLoopT_add (E : Elem α) (T : Torn α) (x y : Nat) : ∀ (a k b : Nat),
    swapLoopT E T x y k (a + b) = (swapLoopT E T x y k a >>= fun _ => swapLoopT E T x y (k + a) b) := by
  intro a
  induction a with
  | zero => intro k b; rw [Nat.zero_add]; rfl
  | succ a ih =>
    intro k b
    rw [show a + 1 + b = (a + b) + 1 by omega]
    simp only [swapLoopT, ih]
    funext s
    simp only [M.bind_apply, show k + (a + 1) = k + 1 + a by omega]
    cases swapElemT E T x y k s <;> rfl

theorem swapTailT_add (E : Elem α) (T : Torn α) (x y : Nat) : ∀ (a k b : Nat),
    swapTailT E T x y k (a + b) = (swapTailT E T x y k a >>= fun _ => swapTailT E T x y (k + a) b) := by
  intro a
  induction a with
  | zero => intro k b; rw [Nat.zero_add]; rfl
  | succ a ih =>
    intro k b
    rw [show a + 1 + b = (a + b) + 1 by omega]
    simp only [swapTailT, ih]
    funext s
    simp only [M.bind_apply, show k + (a + 1) = k + 1 + a by omega]
    cases lift (at' y (at_ k)) s with
    | ok c s =>
      simp only
      cases emplaceMoveT E T x y k c s with
      | ok d s =>
        simp only
        cases lift (at' y (onBuf fun b => Buf.destroy k b)) s <;> rfl
      | throw e s => rfl
      | ub => rfl
    | throw e s => rfl
    | ub => rfl

/-- some pairs exchanged -/
theorem swapLoop_part (E : Elem α) {x y cx cy : Nat} (hne : x ≠ y) {xs ys : List α}
    (hcx : xs.length ≤ cx) (hcy : ys.length ≤ cy) (hl : xs.length ≤ ys.length) :
    ∀ (f k : Nat) (st : Store α), k + f ≤ xs.length →
    st.vec x = some (rep cx (ys.take k ++ xs.drop k)) → st.vec y = some (rep cy (xs.take k ++ ys.drop k)) →
    swapLoop E x y k f st =
      .ok () ((st.put x (some (rep cx (ys.take (k+f) ++ xs.drop (k+f))))).put y
        (some (rep cy (xs.take (k+f) ++ ys.drop (k+f))))) := by
  intro f
  induction f with
  | zero =>
    intro k st hk hx hy
    simp only [swapLoop, M.pure_apply, Nat.add_zero]
    rw [put_same st hx, put_same st hy]
  | succ f ih =>
    intro k st hk hx hy
    simp only [swapLoop, M.bind_apply]
    rw [swapElem_rep E hne hx hy (by simp; omega) (by simp; omega) (by simp; omega) (by simp; omega)]
    simp only
    have e1 := swap_step xs ys k (by omega) (by omega)
    have e2 := swap_step ys xs k (by omega) (by omega)
    rw [e1, e2, ih (k+1) _ (by omega) (by rw [put_vec_ne _ _ hne]; simp) (by simp)]
    congr 1
    rw [put_comm _ _ _ hne.symm, put_put, put_put, show k + 1 + f = k + (f + 1) by omega]

/-- some of the rest moved -/
theorem swapTail_part (E : Elem α) {s l cs cl a : Nat} (hne : s ≠ l) {xs : List α} (hcl : xs.length ≤ cl) :
    ∀ (f k : Nat) (ys : List α) (st : Store α), a ≤ k → k + f ≤ xs.length → ys.length + f ≤ cs →
    st.vec s = some (rep cs ys) → st.vec l = some ⟨tailBuf cl xs a k, xs.length, none⟩ →
    swapTail E s l k f st =
      .ok () ((st.put s (some (rep cs (ys ++ (xs.drop k).take f)))).put l (some ⟨tailBuf cl xs a (k+f), xs.length, none⟩)) := by
  intro f
  induction f with
  | zero =>
    intro k ys st ha hk hc hs hl
    simp only [swapTail, M.pure_apply, List.take_zero, List.append_nil, Nat.add_zero]
    rw [put_same st hs, put_same st hl]
  | succ f ih =>
    intro k ys st ha hk hc hs hl
    have hkx : k < xs.length := by omega
    have hlive : (tailBuf cl xs a k).cells k = .live xs[k] := by
      simp only [tailBuf]
      rw [if_neg (by omega), Buf.ofList_live hkx]
    simp only [swapTail, M.bind_apply]
    rw [at'_read hl (b := xs[k]) (by
      simp [at_, hkx, Buf.read_live (show k < (tailBuf cl xs a k).cap by simp only [tailBuf]; omega) hlive])]
    simp only
    rw [at'_ok hs (emplaceBackMove_rep (by omega))]
    simp only
    rw [at'_ok (v := ⟨tailBuf cl xs a k, xs.length, none⟩) (by rw [put_vec_ne _ _ hne.symm]; exact hl)
      (onBuf_mk (Buf.assign_live (show k < (tailBuf cl xs a k).cap by simp only [tailBuf]; omega) hlive))]
    simp only
    have hd : Buf.destroy k ⟨(tailBuf cl xs a k).cap,
        Function.update (tailBuf cl xs a k).cells k (Cell.live (E.mv xs[k]))⟩ = _ :=
      Buf.destroy_live (a := E.mv xs[k]) (show k < (tailBuf cl xs a k).cap by simp only [tailBuf]; omega) (by simp)
    rw [at'_ok (put_vec_self _ _ _) (onBuf_mk (f := fun b => Buf.destroy k b) hd)]
    simp only [put_put, Function.update_idem]
    have e : (⟨(tailBuf cl xs a k).cap, Function.update (tailBuf cl xs a k).cells k .raw⟩ : Buf α) =
        tailBuf cl xs a (k+1) := by
      ext i
      · rfl
      · simp only [tailBuf, Function.update_apply]
        grind
    rw [e, ih (k+1) (ys ++ [xs[k]]) _ (by omega) (by omega) (by simp; omega) (by rw [put_vec_ne _ _ hne]; simp) (by simp)]
    congr 1
    rw [put_comm _ _ _ hne.symm, put_put, put_put, List.append_assoc, List.singleton_append,
      show k + 1 + f = k + (f + 1) by omega, List.drop_eq_getElem_cons hkx, List.take_succ_cons]

/-- the exchange of two elements when a move throws -/
theorem swapElemT_fault (E : Elem α) (T : Torn α) {x y cx cy k r : Nat} (hne : x ≠ y) {xs ys : List α} {st : Store α}
    (hx : st.vec x = some (rep cx xs)) (hy : st.vec y = some (rep cy ys)) (hkx : k < xs.length) (hky : k < ys.length)
    (hcx : xs.length ≤ cx) (hcy : ys.length ≤ cy) (hr : r < 3) :
    swapElemT E T x y k ⟨st, some r⟩ = .throw .element
      (if r = 0 then ⟨st.put x (some (rep cx (xs.set k (T.src xs[k])))), none⟩
      else if r = 1 then ⟨(st.put x (some (rep cx (xs.set k (T.adst (E.mv xs[k]) ys[k]))))).put y
        (some (rep cy (ys.set k (T.asrc (E.mv xs[k]) ys[k])))), none⟩
      else ⟨(st.put x (some (rep cx (xs.set k ys[k])))).put y (some (rep cy (ys.set k (T.adst (E.mv ys[k]) xs[k])))), none⟩) := by
  simp only [swapElemT, M.bind_apply]
  rw [lift_ok (at'_read hx (at_rep hkx hcx))]
  simp only
  by_cases h0 : r = 0
  · subst h0
    rw [may_zero (tear_rep hx hkx hcx), if_pos rfl]
  rw [if_neg h0]
  obtain ⟨r, rfl⟩ : ∃ n, r = n + 1 := ⟨r - 1, by omega⟩
  rw [may_succ (at'_ok hx (assign_rep hkx hcx))]
  simp only
  have hy1 : (st.put x (some (rep cx (xs.set k (E.mv xs[k]))))).vec y = some (rep cy ys) := by
    rw [put_vec_ne _ _ hne.symm]; exact hy
  rw [lift_ok (at'_read hy1 (at_rep hky hcy))]
  simp only
  by_cases h1 : r = 0
  · subst h1
    rw [if_pos rfl, may_zero (st' := (st.put x (some (rep cx (xs.set k (T.adst (E.mv xs[k]) ys[k]))))).put y
        (some (rep cy (ys.set k (T.asrc (E.mv xs[k]) ys[k]))))) ?_]
    simp only [M.bind_apply]
    rw [at'_read (put_vec_self _ _ _) (at_rep (by simpa using hkx) (by simpa using hcx))]
    simp only
    rw [at'_ok (put_vec_self _ _ _) (assign_rep (by simpa using hkx) (by simpa using hcx)), put_put]
    simp only [List.set_set, List.getElem_set_self]
    rw [at'_ok (v := rep cy ys) (by rw [put_vec_ne _ _ hne.symm]; exact hy) (assign_rep hky hcy)]
  · rw [if_neg (by omega)]
    obtain rfl : r = 1 := by omega
    rw [may_succ (st' := (st.put x (some (rep cx (xs.set k ys[k])))).put y (some (rep cy (ys.set k (E.mv ys[k]))))) ?_]
    · simp only
      rw [may_zero]
      simp only [M.bind_apply]
      rw [at'_read (put_vec_self _ _ _) (at_rep (by simpa using hky) (by simpa using hcy))]
      simp only
      rw [at'_ok (put_vec_self _ _ _) (assign_rep (by simpa using hky) (by simpa using hcy)), put_put]
      simp only [List.set_set, List.getElem_set_self]
    · simp only [M.bind_apply]
      rw [at'_ok hy1 (assign_rep hky hcy)]
      simp only
      rw [at'_ok (v := rep cx (xs.set k (E.mv xs[k]))) (by rw [put_vec_ne _ _ hne]; simp)
        (assign_rep (by simpa using hkx) (by simpa using hcx)), put_comm _ _ _ hne.symm, put_put, List.set_set,
        put_comm _ _ _ hne]

/-- `swap` when a move throws: `x` is the shorter vector -/
theorem swapKey_fault (E : Elem α) (T : Torn α) {x y c k : Nat} (hne : x ≠ y) {xs ys : List α} {st : Store α}
    (hx : st.vec x = some (rep c xs)) (hy : st.vec y = some (rep c ys))
    (hcx : xs.length ≤ c) (hcy : ys.length ≤ c) (hl : xs.length ≤ ys.length)
    (hk : k < 3 * xs.length + (ys.length - xs.length)) :
    ∃ st', (do swapLoopT E T x y 0 xs.length
               swapTailT E T x y xs.length (ys.length - xs.length)
               lift (at' y (M.modify fun s => { s with size := xs.length })) : M (MV α) Unit) ⟨st, some k⟩ =
        .throw .element ⟨st', none⟩ ∧
      match swapTorn E T k xs ys with
      | some (xs', ys') => st' = (st.put x (some (rep c xs'))).put y (some (rep c ys')) ∧ xs'.length ≤ c ∧ ys'.length ≤ c
      | none => ∃ v q, st'.vec y = some v ∧ q < v.size ∧ v.buf.cells q = .raw := by
  by_cases h3 : k < 3 * xs.length
  · -- in the loop over pairs
    have hj : k / 3 < xs.length := by omega
    have hsp := swapLoopT_add E T x y (k / 3) 0 (xs.length - k / 3)
    rw [show k / 3 + (xs.length - k / 3) = xs.length by omega, Nat.zero_add] at hsp
    have hp := swapLoop_part E hne hcx hcy hl (k / 3) 0 st (by omega) (by simpa using hx) (by simpa using hy)
    have h1 := (swapLoopT_late E T x y (k / 3) 0 st).ok (k := k % 3) hp
    rw [show 3 * (k / 3) + k % 3 = k by omega] at h1
    simp only [Nat.zero_add] at h1
    obtain ⟨f, hf⟩ : ∃ f, xs.length - k / 3 = f + 1 := ⟨xs.length - k / 3 - 1, by omega⟩
    have h2 := swapElemT_fault (cx := c) (cy := c) E T (k := k / 3) (r := k % 3) hne
      (xs := ys.take (k / 3) ++ xs.drop (k / 3)) (ys := xs.take (k / 3) ++ ys.drop (k / 3))
      (st := (st.put x (some (rep c (ys.take (k / 3) ++ xs.drop (k / 3))))).put y
        (some (rep c (xs.take (k / 3) ++ ys.drop (k / 3))))) (by rw [put_vec_ne _ _ hne]; simp) (put_vec_self _ _ _)
      (by simp; omega) (by simp; omega) (by simp; omega) (by simp; omega) (by omega)
    simp only [mix_get ys xs (k / 3) (by omega) (by omega), mix_get xs ys (k / 3) (by omega) (by omega)] at h2
    simp only [M.bind_apply, hsp, hf, swapLoopT, h1, h2]
    have ha : xs[k / 3]? = some xs[k / 3] := List.getElem?_eq_getElem hj
    have hb : ys[k / 3]? = some (ys[k / 3]'(by omega)) := List.getElem?_eq_getElem (by omega)
    simp only [swapTorn, ha, hb]
    by_cases e0 : k % 3 = 0
    · simp only [if_pos e0]
      refine ⟨_, rfl, ?_, by simp; omega, by simp; omega⟩
      rw [put_comm _ _ _ hne.symm, put_put]
    · simp only [if_neg e0]
      by_cases e1 : k % 3 = 1
      · simp only [if_pos e1]
        refine ⟨_, rfl, ?_, by simp; omega, by simp; omega⟩
        rw [put_comm _ _ _ hne.symm, put_put, put_put]
      · simp only [if_neg e1]
        refine ⟨_, rfl, ?_, by simp; omega, by simp; omega⟩
        rw [put_comm _ _ _ hne.symm, put_put, put_put]
  · -- in the loop over the rest
    have hp := swapLoop_part E hne hcx hcy hl xs.length 0 st (by omega) (by simpa using hx) (by simpa using hy)
    have h1 := (swapLoopT_late E T x y xs.length 0 st).ok (k := k - 3 * xs.length) hp
    rw [show 3 * xs.length + (k - 3 * xs.length) = k by omega] at h1
    simp only [Nat.zero_add, List.drop_length, List.append_nil, List.take_length] at h1
    obtain ⟨j, hj⟩ : ∃ j, j = k - 3 * xs.length := ⟨_, rfl⟩
    rw [← hj] at h1
    obtain ⟨zs, hz⟩ : ∃ zs, zs = xs ++ ys.drop xs.length := ⟨_, rfl⟩
    have hzl : zs.length = ys.length := by rw [hz]; simp; omega
    rw [← hz] at h1
    have hsp := swapTailT_add E T x y j xs.length (ys.length - xs.length - j)
    rw [show j + (ys.length - xs.length - j) = ys.length - xs.length by omega] at hsp
    obtain ⟨f, hf⟩ : ∃ f, ys.length - xs.length - j = f + 1 := ⟨ys.length - xs.length - j - 1, by omega⟩
    have h0 : (⟨tailBuf c zs xs.length xs.length, zs.length, none⟩ : SV α) = rep c zs := by
      simp only [rep, tailBuf, SV.mk.injEq, and_true]
      ext i
      · rfl
      · simp only
        rw [if_neg (by omega)]
    have hq := swapTail_part E (xs := zs) (cs := c) (cl := c) (a := xs.length) hne (by omega) j xs.length
      (ys.take xs.length) ((st.put x (some (rep c (ys.take xs.length)))).put y (some (rep c zs))) (by omega) (by omega)
      (by simp; omega) (by rw [put_vec_ne _ _ hne]; simp) (by rw [h0]; simp)
    have h2 := (swapTailT_late E T x y j xs.length _).ok (k := 0) hq
    simp only [Nat.add_zero] at h2
    rw [put_comm _ _ _ hne.symm, put_put, put_put] at h2
    have hlt : xs.length + j < zs.length := by omega
    have hlive : (tailBuf c zs xs.length (xs.length + j)).cells (xs.length + j) = .live zs[xs.length + j] := by
      simp only [tailBuf]
      rw [if_neg (by omega), Buf.ofList_live hlt]
    have hin : xs.length + j < (tailBuf c zs xs.length (xs.length + j)).cap := by simp only [tailBuf]; omega
    have hfin : swapTailT E T x y (xs.length + j) (f + 1)
        ⟨(st.put x (some (rep c (ys.take xs.length ++ (zs.drop xs.length).take j)))).put y
          (some ⟨tailBuf c zs xs.length (xs.length + j), zs.length, none⟩), some 0⟩ =
        .throw .element ⟨(st.put x (some (rep c (ys.take xs.length ++ (zs.drop xs.length).take j)))).put y
          (some ⟨⟨c, Function.update (tailBuf c zs xs.length (xs.length + j)).cells (xs.length + j)
            (.live (T.src zs[xs.length + j]))⟩, zs.length, none⟩), none⟩ := by
      simp only [swapTailT, M.bind_apply]
      rw [lift_ok (at'_read (put_vec_self _ _ _) (b := zs[xs.length + j]) (by simp [at_, hlt, Buf.read_live hin hlive]))]
      simp only [emplaceMoveT]
      rw [may_zero]
      simp only [M.bind_apply, fullCheck]
      rw [at'_read (b := ()) (v := rep c (ys.take xs.length ++ (zs.drop xs.length).take j)) (by rw [put_vec_ne _ _ hne]; simp) (by
        have : ¬ c ≤ (ys.take xs.length ++ (zs.drop xs.length).take j).length := by simp; omega
        simp only [M.bind_apply, M.get_apply, outOfRangeIf, rep_size, rep_cap, ge_iff_le, if_neg this, M.pure_apply])]
      simp only
      rw [tear_ok (put_vec_self _ _ _) hin hlive, put_put]
      rfl
    simp only [M.bind_apply, h1, hsp, h2, hf, hfin]
    refine ⟨_, rfl, ?_⟩
    by_cases hj0 : j = 0
    · subst hj0
      have hk3 : k = 3 * xs.length := by omega
      subst hk3
      have ed : 3 * xs.length / 3 = xs.length := by omega
      have hb : ys[xs.length]? = some (ys[xs.length]'(by omega)) := List.getElem?_eq_getElem (by omega)
      have ez : zs[xs.length + 0]'hlt = ys[xs.length]'(by omega) := by
        simp only [hz, Nat.add_zero]
        rw [List.getElem_append_right (by omega)]
        simp
      simp only [swapTorn, ed, List.getElem?_eq_none (Nat.le_refl xs.length), hb, if_true]
      rw [ez]
      refine ⟨?_, by simp; omega, by simp; omega⟩
      simp only [List.take_zero, List.append_nil, List.drop_length, Nat.add_zero, List.take_length, ← hz]
      congr 2
      have h0' : tailBuf c zs xs.length xs.length = Buf.ofList c zs := by
        have := congrArg SV.buf h0
        simpa [rep] using this
      rw [h0', ofList_set (by omega)]
      simp [rep]
    · have hn : swapTorn E T k xs ys = none := by
        have h5 : xs[k / 3]? = none := List.getElem?_eq_none (by omega)
        simp only [swapTorn, h5]
        cases ys[k / 3]? with
        | none => rfl
        | some b => exact if_neg (by omega)
      rw [hn]
      have hraw : Function.update (tailBuf c zs xs.length (xs.length + j)).cells (xs.length + j)
          (.live (T.src zs[xs.length + j])) xs.length = .raw := by
        rw [Function.update_of_ne (by omega)]
        simp only [tailBuf]
        rw [if_pos (by omega)]
      exact ⟨_, xs.length, put_vec_self _ _ _, (show xs.length < zs.length by omega), hraw⟩

end Itlib.StaticVector
