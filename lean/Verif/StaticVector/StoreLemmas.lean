import Verif.StaticVector.Lemmas

/-! # Proof engineering for stores of `static_vector`s (no property statements here) -/
namespace Itlib.StaticVector
open Itlib
variable {α : Type}

@[simp] theorem put_vec_self (st : Store α) (i : Nat) (v : Option (SV α)) : (st.put i v).vec i = v := by
  simp [Store.put]
theorem put_vec_ne (st : Store α) {i j : Nat} (v : Option (SV α)) (h : j ≠ i) : (st.put i v).vec j = st.vec j := by
  simp [Store.put, h]
@[simp] theorem put_put (st : Store α) (i : Nat) (v w : Option (SV α)) : (st.put i v).put i w = st.put i w := by
  simp [Store.put]
theorem put_comm (st : Store α) {i j : Nat} (v w : Option (SV α)) (h : i ≠ j) :
    (st.put i v).put j w = (st.put j w).put i v := by
  simp [Store.put, Function.update_comm h]
theorem put_same (st : Store α) {i : Nat} {v : Option (SV α)} (h : st.vec i = v) : st.put i v = st := by
  subst h; cases st; simp [Store.put]
@[simp] theorem put_graves (st : Store α) (i : Nat) (v : Option (SV α)) : (st.put i v).graves = st.graves := rfl

theorem at'_ok {β : Type} {st : Store α} {i : Nat} {m : M (SV α) β} {v v' : SV α} {b : β} (hv : st.vec i = some v)
    (h : m v = .ok b v') : at' i m st = .ok b (st.put i (some v')) := by
  simp [at', hv, h]

theorem at'_read {β : Type} {st : Store α} {i : Nat} {m : M (SV α) β} {v : SV α} {b : β} (hv : st.vec i = some v)
    (h : m v = .ok b v) : at' i m st = .ok b st := by
  rw [at'_ok hv h, put_same st hv]

theorem at'_throw {β : Type} {st : Store α} {i : Nat} {m : M (SV α) β} {v v' : SV α} {e : Exc} (hv : st.vec i = some v)
    (h : m v = .throw e v') : at' i m st = .throw e (st.put i (some v')) := by
  simp [at', hv, h]

theorem assign_rep {cap : Nat} {xs : List α} {k : Nat} {a : α} (h : k < xs.length) (hc : xs.length ≤ cap) :
    onBuf (fun b => b.assign k a) (rep cap xs) = .ok () (rep cap (xs.set k a)) := by
  rw [onBuf_rep (Buf.assign_live (c := xs[k]) (by simp only [Buf.ofList_cap]; omega) (Buf.ofList_live h))]
  simp only [rep, List.length_set]
  congr 2
  ext i
  · rfl
  · simp only [Function.update_apply, Buf.ofList_cells]
    grind

theorem copyFromLoop_rep {dst src cd cs : Nat} (hne : dst ≠ src) {xs : List α} (hcs : xs.length ≤ cs) :
    ∀ (f k : Nat) (ys : List α) (st : Store α), st.vec src = some (rep cs xs) → st.vec dst = some (rep cd ys) →
    k + f = xs.length → ys.length + f ≤ cd →
    copyFromLoop dst src k f st = .ok () (st.put dst (some (rep cd (ys ++ xs.drop k)))) := by
  intro f
  induction f with
  | zero =>
    intro k ys st hs hd hk hc
    simp [copyFromLoop, List.drop_of_length_le (show xs.length ≤ k by omega), put_same st hd]
  | succ f ih =>
    intro k ys st hs hd hk hc
    simp only [copyFromLoop, M.bind_apply]
    rw [at'_read hs (at_rep (show k < xs.length by omega) hcs)]
    simp only
    rw [at'_ok hd (pushBack_rep (a := xs[k]'(by omega)) (by simp [Spec.argVal]) (by omega))]
    simp only
    rw [ih (k+1) (ys ++ [xs[k]'(by omega)]) _ (by rw [put_vec_ne _ _ hne.symm]; exact hs) (by simp) (by omega)
      (by simp; omega)]
    simp only [put_put, List.append_assoc, List.singleton_append]
    rw [← List.drop_eq_getElem_cons]

theorem moveFromLoop_rep (E : Elem α) {dst src cd cs : Nat} (hne : dst ≠ src) :
    ∀ (f k : Nat) (xs ys : List α) (st : Store α), st.vec src = some (rep cs xs) → st.vec dst = some (rep cd ys) →
    k + f = xs.length → ys.length + f ≤ cd → xs.length ≤ cs →
    ∃ xs', xs'.length = xs.length ∧
    moveFromLoop E dst src k f st =
      .ok () ((st.put dst (some (rep cd (ys ++ xs.drop k)))).put src (some (rep cs xs'))) := by
  intro f
  induction f with
  | zero =>
    intro k xs ys st hs hd hk hc hcs
    refine ⟨xs, rfl, ?_⟩
    have hk' : k = xs.length := by omega
    simp only [moveFromLoop, M.bind_apply]
    rw [at'_read hs (b := xs.length) (by simp)]
    simp only [hk', if_true, M.pure_apply, List.drop_length, List.append_nil]
    rw [put_same st hd, put_same st hs]
  | succ f ih =>
    intro k xs ys st hs hd hk hc hcs
    have hk' : k ≠ xs.length := by omega
    simp only [moveFromLoop, M.bind_apply]
    rw [at'_read hs (b := xs.length) (by simp)]
    simp only [hk', if_false, M.bind_apply]
    rw [at'_read hs (at_rep (show k < xs.length by omega) hcs)]
    simp only
    rw [at'_ok hd (emplaceBackMove_rep (a := xs[k]'(by omega)) (by omega))]
    simp only
    rw [at'_ok (v := rep cs xs) (by rw [put_vec_ne _ _ hne.symm]; exact hs)
      (assign_rep (a := E.mv (xs[k]'(by omega))) (show k < xs.length by omega) hcs)]
    simp only
    obtain ⟨xs', hl, he⟩ := ih (k+1) (xs.set k (E.mv (xs[k]'(by omega)))) (ys ++ [xs[k]'(by omega)])
      ((st.put dst (some (rep cd (ys ++ [xs[k]'(by omega)])))).put src (some (rep cs (xs.set k (E.mv (xs[k]'(by omega)))))))
      (by simp) (by rw [put_vec_ne _ _ hne]; simp) (by simp; omega) (by simp; omega) (by simpa using hcs)
    refine ⟨xs', by simpa using hl, ?_⟩
    rw [he]
    congr 1
    rw [put_comm _ _ _ hne.symm, put_put, put_put]
    have hdr : (xs.set k (E.mv (xs[k]'(by omega)))).drop (k+1) = xs.drop (k+1) := by
      rw [List.drop_set_of_lt (by omega)]
    rw [hdr, List.append_assoc, List.singleton_append, ← List.drop_eq_getElem_cons]

theorem swapElem_rep (E : Elem α) {x y cx cy k : Nat} (hne : x ≠ y) {xs ys : List α} {st : Store α}
    (hx : st.vec x = some (rep cx xs)) (hy : st.vec y = some (rep cy ys)) (hkx : k < xs.length) (hky : k < ys.length)
    (hcx : xs.length ≤ cx) (hcy : ys.length ≤ cy) :
    swapElem E x y k st = .ok () ((st.put x (some (rep cx (xs.set k ys[k])))).put y (some (rep cy (ys.set k xs[k])))) := by
  simp only [swapElem, M.bind_apply]
  rw [at'_read hx (at_rep hkx hcx)]
  simp only
  rw [at'_ok hx (assign_rep hkx hcx)]
  simp only
  have hy1 : (st.put x (some (rep cx (xs.set k (E.mv xs[k]))))).vec y = some (rep cy ys) := by
    rw [put_vec_ne _ _ hne.symm]; exact hy
  rw [at'_read hy1 (at_rep hky hcy)]
  simp only
  rw [at'_ok hy1 (assign_rep hky hcy)]
  simp only
  rw [at'_ok (v := rep cx (xs.set k (E.mv xs[k]))) (by rw [put_vec_ne _ _ hne]; simp)
    (assign_rep (by simpa using hkx) (by simpa using hcx))]
  simp only
  rw [at'_ok (v := rep cy (ys.set k (E.mv ys[k]))) (by rw [put_vec_ne _ _ hne.symm]; simp)
    (assign_rep (by simpa using hky) (by simpa using hcy))]
  congr 1
  simp only [List.set_set]
  rw [put_comm _ _ _ hne.symm, put_put, put_put]

theorem swapElem_self (E : Elem α) {x cx k : Nat} {xs : List α} {st : Store α}
    (hx : st.vec x = some (rep cx xs)) (hkx : k < xs.length) (hcx : xs.length ≤ cx) :
    swapElem E x x k st = .ok () st := by
  simp only [swapElem, M.bind_apply]
  rw [at'_read hx (at_rep hkx hcx)]
  simp only
  rw [at'_ok hx (assign_rep hkx hcx)]
  simp only
  have h1 : (st.put x (some (rep cx (xs.set k (E.mv xs[k]))))).vec x = some (rep cx (xs.set k (E.mv xs[k]))) := by simp
  rw [at'_read h1 (at_rep (by simpa using hkx) (by simpa using hcx))]
  simp only
  rw [at'_ok h1 (assign_rep (by simpa using hkx) (by simpa using hcx))]
  simp only [put_put]
  rw [at'_ok (put_vec_self _ _ _) (assign_rep (by simpa using hkx) (by simpa using hcx))]
  simp only [put_put]
  rw [at'_ok (put_vec_self _ _ _) (assign_rep (by simpa using hkx) (by simpa using hcx))]
  simp only [put_put, List.set_set, List.set_getElem_self]
  rw [put_same st hx]

theorem swapLoop_self (E : Elem α) {x cx : Nat} {xs : List α} {st : Store α}
    (hx : st.vec x = some (rep cx xs)) (hcx : xs.length ≤ cx) : ∀ (f k : Nat), k + f ≤ xs.length →
    swapLoop E x x k f st = .ok () st := by
  intro f
  induction f with
  | zero => intro k _; simp [swapLoop]
  | succ f ih =>
    intro k hk
    simp only [swapLoop, M.bind_apply]
    rw [swapElem_self E hx (by omega) hcx]
    exact ih (k+1) (by omega)

theorem mix_get (xs ys : List α) (k : Nat) (hx : k < xs.length) (hy : k < ys.length) :
    (xs.take k ++ ys.drop k)[k]'(by simp; omega) = ys[k] := by
  rw [List.getElem_append_right (by simp; omega)]
  simp only [List.length_take, List.getElem_drop]
  congr 1
  omega

theorem swap_step (xs ys : List α) (k : Nat) (hx : k < xs.length) (hy : k < ys.length) :
    (ys.take k ++ xs.drop k).set k ((xs.take k ++ ys.drop k)[k]'(by simp; omega)) =
        ys.take (k+1) ++ xs.drop (k+1) := by
  rw [mix_get xs ys k hx hy, List.set_append_right _ _ (by simp; omega), List.drop_eq_getElem_cons hx,
    List.take_succ_eq_append_getElem hy]
  have : k - (ys.take k).length = 0 := by simp; omega
  rw [this, List.set_cons_zero, List.append_assoc, List.singleton_append]

theorem swapLoop_rep (E : Elem α) {x y cx cy : Nat} (hne : x ≠ y) {xs ys : List α}
    (hcx : xs.length ≤ cx) (hcy : ys.length ≤ cy) (hl : xs.length ≤ ys.length) :
    ∀ (f k : Nat) (st : Store α), k + f = xs.length →
    st.vec x = some (rep cx (ys.take k ++ xs.drop k)) → st.vec y = some (rep cy (xs.take k ++ ys.drop k)) →
    swapLoop E x y k f st =
      .ok () ((st.put x (some (rep cx (ys.take xs.length)))).put y (some (rep cy (xs ++ ys.drop xs.length)))) := by
  intro f
  induction f with
  | zero =>
    intro k st hk hx hy
    have : k = xs.length := by omega
    subst this
    simp only [List.drop_length, List.append_nil, List.take_length] at hx hy
    simp only [swapLoop, M.pure_apply]
    rw [put_same st hx, put_same st hy]
  | succ f ih =>
    intro k st hk hx hy
    simp only [swapLoop, M.bind_apply]
    rw [swapElem_rep E hne hx hy (by simp; omega) (by simp; omega) (by simp; omega) (by simp; omega)]
    simp only
    have e1 := swap_step xs ys k (by omega) (by omega)
    have e2 := swap_step ys xs k (by omega) (by omega)
    rw [e1, e2, ih (k+1) _ (by omega) (by rw [put_vec_ne _ _ hne]; simp) (by simp)]
    congr 1
    rw [put_comm _ _ _ hne.symm, put_put, put_put]

/-- `longer` during the second loop of `swap`: slots `[a, k)` already destroyed, size not yet updated -/
def tailBuf (cap : Nat) (xs : List α) (a k : Nat) : Buf α :=
  ⟨cap, fun i => if a ≤ i ∧ i < k then .raw else (Buf.ofList cap xs).cells i⟩

theorem swapTail_rep (E : Elem α) {s l cs cl a : Nat} (hne : s ≠ l) {xs : List α} (hcl : xs.length ≤ cl) :
    ∀ (f k : Nat) (ys : List α) (st : Store α), a ≤ k → k + f = xs.length → ys.length + f ≤ cs →
    st.vec s = some (rep cs ys) → st.vec l = some ⟨tailBuf cl xs a k, xs.length, none⟩ →
    swapTail E s l k f st =
      .ok () ((st.put s (some (rep cs (ys ++ xs.drop k)))).put l (some ⟨tailBuf cl xs a xs.length, xs.length, none⟩)) := by
  intro f
  induction f with
  | zero =>
    intro k ys st ha hk hc hs hl
    have : k = xs.length := by omega
    subst this
    simp only [swapTail, M.pure_apply, List.drop_length, List.append_nil]
    rw [put_same st hs, put_same st hl]
  | succ f ih =>
    intro k ys st ha hk hc hs hl
    have hkx : k < xs.length := by omega
    have hlive : (tailBuf cl xs a k).cells k = .live xs[k] := by
      simp only [tailBuf]
      rw [if_neg (by omega), Buf.ofList_live hkx]
    simp only [swapTail, M.bind_apply]
    rw [at'_read hl (b := xs[k]) (by
      simp [at_, hkx, Buf.read_live (show k < (tailBuf cl xs a k).cap by simp only [tailBuf]; omega) hlive])]
    simp only
    rw [at'_ok hs (emplaceBackMove_rep (by omega))]
    simp only
    rw [at'_ok (v := ⟨tailBuf cl xs a k, xs.length, none⟩) (by rw [put_vec_ne _ _ hne.symm]; exact hl)
      (onBuf_mk (Buf.assign_live (show k < (tailBuf cl xs a k).cap by simp only [tailBuf]; omega) hlive))]
    simp only
    have hd : Buf.destroy k ⟨(tailBuf cl xs a k).cap,
        Function.update (tailBuf cl xs a k).cells k (Cell.live (E.mv xs[k]))⟩ = _ :=
      Buf.destroy_live (a := E.mv xs[k]) (show k < (tailBuf cl xs a k).cap by simp only [tailBuf]; omega) (by simp)
    rw [at'_ok (put_vec_self _ _ _) (onBuf_mk (f := fun b => Buf.destroy k b) hd)]
    simp only [put_put, Function.update_idem]
    have e : (⟨(tailBuf cl xs a k).cap, Function.update (tailBuf cl xs a k).cells k .raw⟩ : Buf α) =
        tailBuf cl xs a (k+1) := by
      ext i
      · rfl
      · simp only [tailBuf, Function.update_apply]
        grind
    rw [e, ih (k+1) (ys ++ [xs[k]]) _ (by omega) (by omega) (by simp; omega) (by rw [put_vec_ne _ _ hne]; simp) (by simp)]
    congr 1
    rw [put_comm _ _ _ hne.symm, put_put, put_put, List.append_assoc, List.singleton_append,
      ← List.drop_eq_getElem_cons]

theorem swap_self (E : Elem α) {x cx : Nat} {xs : List α} {st : Store α}
    (hx : st.vec x = some (rep cx xs)) (hcx : xs.length ≤ cx) : swap E x x st = .ok () st := by
  simp only [swap, M.bind_apply]
  rw [at'_read hx (b := xs.length) (by simp)]
  simp only
  rw [at'_read hx (b := xs.length) (by simp)]
  simp only [gt_iff_lt, Nat.lt_irrefl, if_false, Nat.sub_self, swapTail, M.bind_apply]
  rw [swapLoop_self E hx hcx _ _ (by omega)]
  simp only [M.pure_apply]
  rw [at'_read hx (b := ()) (by simp [rep])]

theorem swap_lt (E : Elem α) {x y c : Nat} (hne : x ≠ y) {xs ys : List α} {st : Store α}
    (hx : st.vec x = some (rep c xs)) (hy : st.vec y = some (rep c ys))
    (hcx : xs.length ≤ c) (hcy : ys.length ≤ c) :
    swap E x y st = .ok () ((st.put x (some (rep c ys))).put y (some (rep c xs))) := by
  have key : ∀ {x y : Nat} (hne : x ≠ y) {xs ys : List α} {st : Store α}
    (hx : st.vec x = some (rep c xs)) (hy : st.vec y = some (rep c ys))
    (hcx : xs.length ≤ c) (hcy : ys.length ≤ c), xs.length ≤ ys.length →
    (do swapLoop E x y 0 xs.length
        swapTail E x y xs.length (ys.length - xs.length)
        at' y (M.modify fun s => { s with size := xs.length }) : M (Store α) Unit) st =
      .ok () ((st.put x (some (rep c ys))).put y (some (rep c xs))) := by
    intro x y hne xs ys st hx hy hcx hcy hl
    simp only [M.bind_apply]
    rw [swapLoop_rep E hne hcx hcy hl xs.length 0 st (by omega) (by simpa using hx) (by simpa using hy)]
    simp only
    have hlen : (xs ++ ys.drop xs.length).length = ys.length := by simp; omega
    have h0 : (⟨tailBuf c (xs ++ ys.drop xs.length) xs.length xs.length, (xs ++ ys.drop xs.length).length, none⟩ : SV α)
        = rep c (xs ++ ys.drop xs.length) := by
      simp only [rep, tailBuf, SV.mk.injEq, and_true]
      ext i
      · rfl
      · simp only
        rw [if_neg (by omega)]
    rw [swapTail_rep E (xs := xs ++ ys.drop xs.length) (cs := c) (cl := c) (a := xs.length) hne (by omega) _ _
      (ys.take xs.length) _ (by omega) (by omega) (by simp; omega) (by rw [put_vec_ne _ _ hne]; simp)
      (by rw [h0]; simp)]
    simp only
    rw [at'_ok (put_vec_self _ _ _) (by rfl)]
    have h1 : (⟨tailBuf c (xs ++ ys.drop xs.length) xs.length (xs ++ ys.drop xs.length).length, xs.length, none⟩ : SV α)
        = rep c xs := by
      simp only [rep, tailBuf, SV.mk.injEq, and_true]
      ext i
      · rfl
      · simp only [hlen, Buf.ofList_cells]
        grind
    simp only [h1, put_put, List.drop_left, List.take_append_drop]
    congr 1
    rw [put_comm _ _ _ hne.symm, put_put, put_put]
  simp only [swap, M.bind_apply]
  rw [at'_read hx (b := xs.length) (by simp)]
  simp only
  rw [at'_read hy (b := ys.length) (by simp)]
  simp only [gt_iff_lt]
  by_cases h : xs.length < ys.length
  · simp only [h, if_true]
    have := key hne hx hy hcx hcy (by omega)
    simp only [M.bind_apply] at this
    exact this
  · simp only [h, if_false]
    have := key hne.symm hy hx hcy hcx (by omega)
    simp only [M.bind_apply] at this
    rw [this, put_comm _ _ _ hne]

end Itlib.StaticVector
