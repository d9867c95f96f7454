import Verif.SmallVector.MoveTorn

/-! # Member functions in which a move throws (proof engineering): erasing and fitting -/
namespace Itlib.SmallVector
open Itlib Spec
variable {α β γ : Type} (E : Elem α) (tr : α → α)
variable {C : Ctx α} {h h' : Home} {k k' : Nat} {b b' c c' : Buf α} {e : Loc} {n nx : Nat} {g : List (Buf α)} {xs : List α}

/-! ### Erasing -/

theorem destroyRange_opts (m : Nat) : ∀ (xs : List α) (us vs : List (Option α)), us.length + xs.length ≤ m →
    (ofOpts m (us ++ (xs.map some ++ vs))).destroyRange us.length xs.length =
      some (ofOpts m (us ++ (List.replicate xs.length none ++ vs))) := by
  intro xs
  induction xs with
  | nil => intro us vs _; simp [Buf.destroyRange]
  | cons a xs ih =>
    intro us vs h1
    simp only [List.length_cons] at h1
    simp only [List.length_cons, Buf.destroyRange, List.map_cons, List.cons_append]
    rw [Buf.destroy_live (a := a) (by simp only [ofOpts_cap]; omega) (by rw [ofOpts_at])]
    have := ih (us ++ [none]) vs (by simp; omega)
    simp only [List.length_append, List.length_singleton, List.append_assoc, List.singleton_append] at this
    simp only [ofOpts_cap, ofOpts_drop, Option.bind_eq_bind, Option.bind_some, this]
    simp [List.replicate_succ]

/-- the destructor meets a slot without object -/
theorem dead_two {q : Nat} (hd : loc C.i k h ≠ loc C.i k' h') (hq : q < n) (hr : b.cells q = .raw) :
    Dead (stB2 C h k b (loc C.i k h) n h' k' c nx g) := by
  show dtorBody (stB2 { C with ct := none, at' := none } h k b (loc C.i k h) n h' k' c nx g) = .ub
  simp only [dtorBody, M.bind_apply, destroyAll, size, M.get_apply, stB2_bgn, stB2_endp, if_true, M.pure_apply, stB2_endo]
  have := buf_src (C := { C with ct := none, at' := none }) (b := b) (c := c) (e := loc C.i k h) (n := n) (nx := nx) (g := g) hd
  simp only [onLoc, M.mem, this]
  have hdr : b.destroyRange 0 n = none := destroyRange_dead _ _ q _ (by omega) (by omega) hr
  simp [hdr]

theorem opts_raw (m j : Nat) (vs : List (Option α)) (hj : 0 < j) : (ofOpts m (List.replicate j none ++ vs)).cells 0 = .raw := by
  obtain ⟨j, rfl⟩ : ∃ q, j = q + 1 := ⟨j - 1, by omega⟩
  simp [ofOpts, List.replicate_succ]

theorem ok_bind {σ : Type} {f : M σ β} {f' : β → M σ γ} {s t : σ} {a : β} (h : f s = .ok a t) : (f >>= f') s = f' a t := by
  simp only [M.bind_apply, h]

theorem shrink_tears (hG : Good C h k xs nx g) {first last : Int} {j : Nat} (hfl : first ≤ last)
    (hj : j < eraMoves C.P.N C.P.R h xs.length first last)
    (hs : (0 ≤ first ∧ first ≤ last ∧ last ≤ xs.length) → first = last → first = xs.length ∨ moves C.P.N C.P.R xs.length h) :
    Tears C nx g (shrinkAtT C.P E tr first (last - first).toNat ⟨st C h k xs nx g, some j⟩)
      (if moves C.P.N C.P.R (xs.length - (last - first).toNat) h ∧ j = 0 ∧ (0 < first ∨ first = last) then
        some (h, torn E tr j xs, []) else none) := by
  by_cases hp : 0 ≤ first ∧ first ≤ last ∧ last ≤ xs.length
  swap
  · simp only [eraMoves, if_neg hp] at hj; omega
  have hs := hs hp
  obtain ⟨p, rfl⟩ := Int.eq_ofNat_of_zero_le hp.1
  obtain ⟨q, rfl⟩ : ∃ q : Nat, last = p + q := ⟨(last - p).toNat, by omega⟩
  have hpq : p + q ≤ xs.length := by omega
  have e1 : ((p : Int) + q - p).toNat = q := by omega
  have e2 : ((p : Int) + q).toNat = p + q := by omega
  simp only [eraMoves, if_pos hp, e1, e2] at hj
  rw [e1]
  have hlen := hG.len
  by_cases h0 : xs.length - q = 0
  · rw [if_pos h0] at hj; omega
  rw [if_neg h0] at hj
  have hno : ¬ ((p : Int) < 0 ∨ (p : Int) > (xs.length : Int) ∨ (p : Int) + (q : Int) > (xs.length : Int)) := by omega
  by_cases hm : moves C.P.N C.P.R (xs.length - q) h
  · rw [if_pos hm] at hj
    have hh : ∃ cc, h = .dyn cc := by
      cases h with
      | stat => simp only [moves, Home.cap] at hm hlen; omega
      | dyn cc => exact ⟨cc, rfl⟩
    obtain ⟨cc, rfl⟩ := hh
    have hch' : choose C.P.N C.P.R (xs.length - q) (.dyn cc) = .stat := by
      simp only [moves, Home.cap] at hm hlen
      simp only [choose]
      rw [if_pos (by omega), if_pos (by omega)]
    obtain ⟨a2, k', nx', hch, hd, hw', hw, hle⟩ := choose_move (b := Buf.ofList ((Home.dyn cc).cap C.P.N) xs) (n := xs.length) (g := g)
      hG.N hG.wf hm (fun hlt => by simp only [Home.cap] at hlt hlen; omega)
    have hge := choose_ge (d := xs.length - q) hG.N hG.R hG.wf
    rw [hch'] at hch hd hw' hge
    have hN : (Home.stat).cap C.P.N = C.P.N := rfl
    -- the beginning of the function
    have start : ∀ o, Tears C nx g ((do
        relocLoopT E tr (loc C.i k (.dyn cc)) (loc C.i k' .stat) 0 0 p
        lift (onLoc (loc C.i k (.dyn cc)) (·.destroyRange p q))
        relocLoopT E tr (loc C.i k (.dyn cc)) (loc C.i k' .stat) (p + q) p (xs.length - q - p)
        lift do
          deallocate (loc C.i k (.dyn cc)) cc
          setPtrs (loc C.i k' .stat) (xs.length - q) C.P.N
          pure p : M (Mv (St α)) Nat) ⟨stB2 { C with at' := a2 } (.dyn cc) k (ofOpts cc (xs.map some)) (loc C.i k (.dyn cc))
            xs.length .stat k' (ofOpts C.P.N []) nx' g, some j⟩) o →
        Tears C nx g (shrinkAtT C.P E tr (p : Int) q ⟨st C (.dyn cc) k xs nx g, some j⟩) o := by
      intro o ho
      convert ho using 1
      rw [ofOpts_map, ofOpts_nil]
      simp only [st]
      simp only [shrinkAtT, M.bind_apply, lift, size_stB, hno, if_false, h0, Int.toNat_natCast]
      rw [hch]
      simp only [M.get_apply, stB2_bgn, if_false, stB2_self, loc, ne_eq, not_true_eq_false,
        stB2_cap, Home.cap]
      rfl
    apply start
    rw [show (Home.dyn cc).cap C.P.N = cc from rfl] at hlen
    have hN0 : xs.length - q ≤ C.P.N := hge
    by_cases hjp : j < p
    · -- the throw is in the first loop
      have hf := relocLoopT_fault E tr (C := { C with at' := a2 }) (h := .dyn cc) (k := k) (h' := .stat) (k' := k')
        (e := loc C.i k (.dyn cc)) (n := xs.length) (nx := nx') (g := g) (cb := cc) (cc := C.P.N) hd j p xs [] [] hjp (by omega)
        (by simp only [List.length_nil]; omega) (by simp only [List.length_nil]; omega)
      simp only [List.nil_append, List.length_nil] at hf
      refine Tears.bind ?_
      by_cases hj0 : j = 0
      · subst hj0
        rw [if_pos ⟨hm, rfl, Or.inl (by omega)⟩]
        have hb : Between C (.dyn cc) k nx g .stat (torn E tr 0 xs) [] _ :=
          ⟨a2, k', nx', [], rfl, rfl, Nat.zero_le _, hd, hw', hw, hle⟩
        have := hb.tears (β := Unit) hG (torn_length E tr 0 xs) (r := .throw .element ⟨_, none⟩) rfl
        simp only [if_true] at this
        rw [hf]
        simpa only [List.replicate_zero, List.nil_append, List.drop_zero, ofOpts_map, List.take_zero, List.map_nil,
          torn_length, Home.cap] using this
      · rw [if_neg (by omega)]
        refine ⟨_, hf, Or.inl (dead_two (C := { C with at' := a2 }) hd (q := 0) (by omega) (opts_raw _ _ _ (by omega)))⟩
    · -- the throw is in the second loop
      have hsplit : xs = xs.take p ++ ((xs.drop p).take q ++ xs.drop (p + q)) := by
        rw [← List.drop_drop, List.take_append_drop, List.take_append_drop]
      have l1 : (xs.take p).length = p := by simp; omega
      have l2 : ((xs.drop p).take q).length = q := by simp; omega
      have l3 : (xs.drop (p + q)).length = xs.length - q - p := by simp; omega
      have f1 := relocLoopT_ok E tr (C := { C with at' := a2 }) (h := .dyn cc) (k := k) (h' := .stat) (k' := k')
        (e := loc C.i k (.dyn cc)) (n := xs.length) (nx := nx') (g := g) (cb := cc) (cc := C.P.N) hd (xs.take p) []
        (((xs.drop p).take q ++ xs.drop (p + q)).map some) [] (j - p)
        (by simp only [List.length_nil, l1]; omega) (by simp only [List.length_nil, l1]; omega)
      simp only [List.nil_append, List.length_nil, l1, ← List.map_append, ← hsplit] at f1
      rw [show p + (j - p) = j by omega] at f1
      have f2 := destroyRange_opts cc ((xs.drop p).take q) (List.replicate p none) ((xs.drop (p + q)).map some)
        (by simp only [List.length_replicate, l2]; omega)
      simp only [List.length_replicate, l2, ← List.map_append] at f2
      have f3 := relocLoopT_fault E tr (C := { C with at' := a2 }) (h := .dyn cc) (k := k) (h' := .stat) (k' := k')
        (e := loc C.i k (.dyn cc)) (n := xs.length) (nx := nx') (g := g) (cb := cc) (cc := C.P.N) hd (j - p) (xs.length - q - p)
        (xs.drop (p + q)) (List.replicate p none ++ List.replicate q none) ((xs.take p).map some)
        (by omega) (by omega) (by simp only [List.length_append, List.length_replicate]; omega)
        (by simp only [List.length_map, l1]; omega)
      simp only [List.length_append, List.length_replicate, List.length_map, l1] at f3
      have f2' := onLoc_src (C := { C with at' := a2 }) (c := ofOpts C.P.N ((xs.take p).map some)) (e := loc C.i k (.dyn cc))
        (n := xs.length) (nx := nx') (g := g) hd (f := fun b => b.destroyRange p q) f2
      rw [ok_bind f1, ok_bind (a := ()) (t := ⟨_, some (j - p)⟩) (by simp only [lift]; rw [f2'])]
      refine Tears.bind ?_
      simp only [← List.append_assoc]
      rw [f3]
      by_cases hz : j = 0 ∧ p = 0 ∧ q = 0
      · obtain ⟨rfl, rfl, rfl⟩ := hz
        rw [if_pos ⟨by simpa using hm, rfl, Or.inr (by simp)⟩]
        have hb : Between C (.dyn cc) k nx g .stat (torn E tr 0 xs) [] _ :=
          ⟨a2, k', nx', [], rfl, rfl, Nat.zero_le _, hd, hw', hw, hle⟩
        have := hb.tears (β := Unit) hG (torn_length E tr 0 xs) (r := .throw .element ⟨_, none⟩) rfl
        simp only [if_true] at this
        simpa only [List.replicate_zero, List.nil_append, List.drop_zero, ofOpts_map, List.take_zero, List.map_nil,
          torn_length, Home.cap, Nat.sub_self, Nat.add_zero, List.append_nil] using this
      · rw [if_neg (by omega)]
        refine ⟨_, rfl, Or.inl (dead_two (C := { C with at' := a2 }) hd (q := 0) (by omega) ?_)⟩
        rw [← List.append_assoc, List.replicate_append_replicate, List.replicate_append_replicate]
        exact opts_raw _ _ _ (by omega)
  · rw [if_neg hm] at hj
    rw [if_neg (fun h => hm h.1)]
    have hq : 0 < q := by
      rcases Nat.eq_zero_or_pos q with rfl | hq
      · rcases hs (by simp) with h1 | h1
        · omega
        · exact absurd h1 hm
      · exact hq
    obtain ⟨b', i, hi, hr, hf⟩ := shiftDownT_fault E tr (C := C) (h := h) (k := k) (n := xs.length) (nx := nx) (g := g)
      (xs.length - (p + q)) j p (p + q) (Buf.ofList (h.cap C.P.N) xs) hj (by omega) (by simp only [Buf.ofList_cap]; omega)
      (fun i _ h2 => ⟨xs[i]'(by omega), Buf.ofList_live (by omega)⟩)
    refine ⟨stB C h k b' xs.length nx g, ?_, Or.inl (dead_stB' (q := i) (by omega) hr)⟩
    simp only [st]
    simp only [shrinkAtT, M.bind_apply, lift, size_stB, hno, if_false, h0, Int.toNat_natCast]
    rw [chooseData_stay hm]
    simp only [M.get_apply, stB_bgn, if_true, M.bind_apply, hf]

/-! ### Fitting -/

/-- a vector in a new buffer, with its old block -/
def stO (C : Ctx α) (ko : Nat) (b : Buf α) (h : Home) (k : Nat) (c : Buf α) (n nx : Nat) (g : List (Buf α)) : St α :=
  stB { C with h0 := Function.update C.h0 ko (some ⟨C.al, b⟩) } h k c n nx g

section refit
variable {ko : Nat} (hd : Loc.dyn ko ≠ loc C.i k h)
include hd

theorem stO_buf : (stO C ko b h k c n nx g).buf (.dyn ko) = some b := by
  cases h with
  | stat => simp [stO, St.buf, stB, putHeap]
  | dyn cc =>
    simp only [loc, ne_eq, Loc.dyn.injEq] at hd
    simp [stO, St.buf, stB, putHeap, hd]

theorem stO_setBuf : (stO C ko b h k c n nx g).setBuf (.dyn ko) b' = stO C ko b' h k c n nx g := by
  cases h with
  | stat => simp [stO, St.setBuf, stB, putHeap]
  | dyn cc =>
    simp only [loc, ne_eq, Loc.dyn.injEq] at hd
    have : ∀ x y z : Option (Block α), Function.update (Function.update (Function.update C.h0 ko x) k y) ko z =
        Function.update (Function.update C.h0 ko z) k y := by
      intro x y z
      rw [Function.update_comm (Ne.symm hd), Function.update_idem]
    simp [stO, St.setBuf, stB, putHeap, hd, this]

theorem stO_one {p np : Nat} (hf : moveLoop E.mv p np 1 b c = some (b', c')) :
    onLoc2 (.dyn ko) (loc C.i k h) (moveLoop E.mv p np 1) (stO C ko b h k c n nx g) = .ok () (stO C ko b' h k c' n nx g) := by
  have h1 : (stO C ko b h k c n nx g).buf (loc C.i k h) = some c := buf_stB
  have h2 : (stO C ko b' h k c n nx g).setBuf (loc C.i k h) c' = stO C ko b' h k c' n nx g := setBuf_stB
  simp [onLoc2, M.mem, stO_buf hd, h1, hf, stO_setBuf hd, h2, hd]

theorem stO_drop {f : Buf α → Option (Buf α)} (hf : f b = some b') :
    onLoc (.dyn ko) f (stO C ko b h k c n nx g) = .ok () (stO C ko b' h k c n nx g) := by
  simp [onLoc, M.mem, stO_buf hd, hf, stO_setBuf hd]

theorem refitLoopT_fault {cb cc : Nat} : ∀ (j K : Nat) (xs : List α) (us l : List (Option α)), j < K → K ≤ xs.length →
    us.length + K ≤ cb → l.length + K ≤ cc →
    refitLoopT E tr (.dyn ko) us.length K
      ⟨stO C ko (ofOpts cb (us ++ xs.map some)) h k (ofOpts cc l) l.length nx g, some j⟩ =
    .throw .element ⟨stO C ko (ofOpts cb (us ++ (List.replicate j none ++ ((torn E tr j xs).drop j).map some))) h k
      (ofOpts cc (l ++ (xs.take j).map some)) (l.length + j) nx g, none⟩ := by
  have e1 : ∀ b c n, (stO C ko b h k c n nx g).v.endp = loc C.i k h := fun _ _ _ => rfl
  have e2 : ∀ b c n, (stO C ko b h k c n nx g).v.endo = n := fun _ _ _ => rfl
  intro j
  induction j with
  | zero =>
    intro K xs us l h1 h2 h3 h4
    obtain ⟨K, rfl⟩ : ∃ q, K = q + 1 := ⟨K - 1, by omega⟩
    cases xs with
    | nil => simp at h2
    | cons a xs =>
      simp only [refitLoopT, M.bind_apply, lift, M.get_apply, e1, e2, moveOneT, List.map_cons]
      rw [may_bad (by
        rw [tear_gen tr (stO_buf hd) (a := a) (by simp only [ofOpts_cap]; omega) (by rw [ofOpts_at]), stO_setBuf hd])]
      simp [ofOpts_set, torn_zero]
  | succ j ih =>
    intro K xs us l h1 h2 h3 h4
    obtain ⟨K, rfl⟩ : ∃ q, K = q + 1 := ⟨K - 1, by omega⟩
    cases xs with
    | nil => simp at h2
    | cons a xs =>
      simp only [refitLoopT, M.bind_apply, lift, M.get_apply, e1, e2, moveOneT, List.map_cons]
      rw [may_ok (stO_one E hd (moveLoop_opts E.mv us _ l a (by omega) (by omega)))]
      have hdel : (ofOpts cb (us ++ some (E.mv a) :: xs.map some)).destroy us.length =
          some (ofOpts cb (us ++ none :: xs.map some)) := by
        rw [Buf.destroy_live (a := E.mv a) (by simp only [ofOpts_cap]; omega) (by rw [ofOpts_at])]
        simp only [ofOpts_cap, ofOpts_drop]
      have hs : ∀ b c n m, setEnd (loc C.i k h) m (stO C ko b h k c n nx g) = .ok () (stO C ko b h k c m nx g) :=
        fun _ _ _ _ => rfl
      simp only [hs, stO_drop hd (f := fun b => b.destroy us.length) hdel]
      have := ih K xs (us ++ [none]) (l ++ [some a]) (by omega) (by simpa using h2) (by simp; omega) (by simp; omega)
      simp only [List.length_append, List.length_singleton, List.append_assoc, List.singleton_append] at this
      simp only [this]
      simp [torn_cons, List.replicate_succ, Nat.add_assoc, Nat.add_comm 1 j]

end refit

theorem fit_tears {cc : Nat} (hG : Good C (.dyn cc) k xs nx g) {j : Nat} (hj : j < xs.length) (hc : xs.length ≠ cc)
    (hN : xs.length ≠ C.P.N) (ha : C.P.N < xs.length → C.at' ≠ some 0) :
    Tears C nx g (shrinkToFitT C.P E tr ⟨st C (.dyn cc) k xs nx g, some j⟩)
      (some (if xs.length ≤ C.P.N then .stat else .dyn xs.length, xs.take j, [(cc, (torn E tr j xs).drop j)])) := by
  have ho := hG.wf.own cc rfl
  have hlen : xs.length ≤ cc := hG.len
  have hcap : (Home.dyn cc).cap C.P.N = cc := rfl
  -- what is left of the old block
  have hob : objects (ofOpts cc (List.replicate j none ++ ((torn E tr j xs).drop j).map some)) = (torn E tr j xs).drop j := by
    rw [objects_ofOpts (by simp [torn_length]; omega), List.filterMap_append, List.filterMap_replicate_of_none (by rfl)]
    simp
  have fin (a2 : Option Nat) (h1 : Home) (k1 nx1 : Nat) (hle : nx ≤ nx1) (hd : Loc.dyn k ≠ loc C.i k1 h1)
      (hcp : xs.length ≤ h1.cap C.P.N) (hfree : ∀ i, nx1 ≤ i → C.h0 i = none)
      (hown : ∀ c, h1 = .dyn c → k1 < nx1 ∧ C.h0 k1 = none ∧ C.P.N ≤ c)
      (r : Res (Mv (St α)) Bool)
      (hr : r = .throw .element ⟨stO { C with at' := a2 } k
        (ofOpts cc (List.replicate j none ++ ((torn E tr j xs).drop j).map some)) h1 k1
        (ofOpts (h1.cap C.P.N) ((xs.take j).map some)) j nx1 g, none⟩) :
      Tears C nx g r (some (h1, xs.take j, [(cc, (torn E tr j xs).drop j)])) := by
    refine ⟨{ C with at' := a2, h0 := Function.update C.h0 k (some ⟨C.al,
      ofOpts cc (List.replicate j none ++ ((torn E tr j xs).drop j).map some)⟩) }, k1, nx1, ?_, ?_, ?_⟩
    · rw [hr]
      simp only [stO, st, ofOpts_map, List.length_take, Nat.min_eq_left (Nat.le_of_lt hj)]
    · refine ⟨hG.N, hG.R, ⟨?_, ?_⟩, hG.raw, ?_⟩
      · intro i hi
        simp only
        rw [Function.update_of_ne (by omega)]
        exact hfree i hi
      · intro c hc
        have := hown c hc
        have hk : k1 ≠ k := by
          subst hc
          simp only [loc, ne_eq, Loc.dyn.injEq] at hd
          exact fun e => hd e.symm
        simp only
        rw [Function.update_of_ne hk]
        exact this
      · simp only [List.length_take]; omega
    · refine ⟨hle, a2, Or.inr ⟨k, _, ?_, rfl, ho.2.1, by omega, rfl⟩⟩
      simp only [hob, ofOpts_cap]
  have hns : (st C (.dyn cc) k xs nx g).v.isStatic = false := by simp [st]
  have hbg : (st C (.dyn cc) k xs nx g).v.bgn = .dyn k := rfl
  have hcp : (st C (.dyn cc) k xs nx g).v.cap = cc := rfl
  have hse : (st C (.dyn cc) k xs nx g).v.self = C.i := rfl
  simp only [shrinkToFitT, M.bind_apply, lift, size_st, M.get_apply]
  rw [if_neg (by rw [hcp]; exact hc), if_neg (by rw [hns]; simp)]
  by_cases hlt : xs.length < C.P.N
  · rw [if_pos hlt, if_pos (Nat.le_of_lt hlt)]
    have hp : setPtrs (.stat C.i) 0 C.P.N (st C (.dyn cc) k xs nx g) =
        .ok () (stO C k (ofOpts cc (xs.map some)) .stat k (ofOpts C.P.N []) 0 nx g) := by
      simp [setPtrs, st, stB, stO, putStat, putHeap, loc, Home.cap, ofOpts_map, ofOpts_nil]
    have hd : Loc.dyn k ≠ loc C.i k .stat := by simp [loc]
    have hf := refitLoopT_fault E tr (C := C) (nx := nx) (g := g) hd (cb := cc) (cc := C.P.N) j xs.length xs [] [] hj
      (Nat.le_refl _) (by simp only [List.length_nil]; omega) (by simp only [List.length_nil]; omega)
    simp only [List.nil_append, List.length_nil, Nat.zero_add] at hf
    refine fin C.at' .stat k nx (Nat.le_refl _) hd (Nat.le_of_lt hlt) hG.wf.free (by simp) _ ?_
    rw [hbg, hse]
    simp only [M.bind_apply, lift, hp, hf]
    rfl
  · rw [if_neg hlt, if_neg (by omega)]
    have alloc : ∃ a2, allocate xs.length (st C (.dyn cc) k xs nx g) =
        .ok (.dyn nx) { st C (.dyn cc) k xs nx g with
          heap := Function.update (st C (.dyn cc) k xs nx g).heap nx (some ⟨C.al, Buf.fresh xs.length⟩), next := nx + 1, atick := a2 } := by
      have h1 : (st C (.dyn cc) k xs nx g).atick = C.at' := rfl
      have h2 : (st C (.dyn cc) k xs nx g).v.al = C.al := rfl
      have h3 : (st C (.dyn cc) k xs nx g).next = nx := rfl
      simp only [allocate, h1]
      cases h1 : C.at' with
      | none => exact ⟨none, by simp [h2, h3]⟩
      | some i =>
        cases i with
        | zero => exact absurd h1 (ha (by omega))
        | succ i => exact ⟨some i, by simp [h2, h3]⟩
    obtain ⟨a2, hal⟩ := alloc
    have hd : Loc.dyn k ≠ loc C.i nx (.dyn xs.length) := by simp only [loc, ne_eq, Loc.dyn.injEq]; omega
    have hp : setPtrs (.dyn nx) 0 xs.length { st C (.dyn cc) k xs nx g with
          heap := Function.update (st C (.dyn cc) k xs nx g).heap nx (some ⟨C.al, Buf.fresh xs.length⟩), next := nx + 1, atick := a2 } =
        .ok () (stO { C with at' := a2 } k (ofOpts cc (xs.map some)) (.dyn xs.length) nx (ofOpts xs.length []) 0 (nx + 1) g) := by
      simp [setPtrs, st, stB, stO, putStat, putHeap, loc, Home.cap, ofOpts_map, ofOpts_nil]
    have hf := refitLoopT_fault E tr (C := { C with at' := a2 }) (nx := nx + 1) (g := g) hd (cb := cc) (cc := xs.length) j xs.length
      xs [] [] hj (Nat.le_refl _) (by simp only [List.length_nil]; omega) (by simp only [List.length_nil]; omega)
    simp only [List.nil_append, List.length_nil, Nat.zero_add] at hf
    refine fin a2 (.dyn xs.length) nx (nx + 1) (by omega) hd (Nat.le_refl _) (fun i hi => hG.wf.free i (by omega))
      (fun c hc => ?_) _ ?_
    · cases hc
      exact ⟨by omega, hG.wf.free nx (Nat.le_refl _), by omega⟩
    · rw [hbg]
      simp only [M.bind_apply, lift, hal, hp, hf]
      rfl

/-! ### All member functions -/

theorem vop_tears {op : Op α} (hG : Good C h k xs nx g) (hs : Safe C.P.N C.P.R op h xs) {j : Nat}
    (hj : j < vmoves C.P.N C.P.R op h xs.length) (ha : allocs C.P.N op h xs = true → C.at' ≠ some 0) :
    Tears C nx g (vop C.P E tr op ⟨st C h k xs nx g, some j⟩) (tornStep C.P.N C.P.R E tr j op h xs) := by
  have bnd {β : Type} (v : Arg α) {f : Ref α → M (Mv (St α)) β} {o} (hf : ∀ r, Tears C nx g (f r ⟨st C h k xs nx g, some j⟩) o) :
      Tears C nx g ((lift (bindRef v) >>= f) ⟨st C h k xs nx g, some j⟩) o := by
    rw [ok_bind (a := refOf C h k v) (t := ⟨st C h k xs nx g, some j⟩) (by simp only [lift, bindRef_st])]
    exact hf _
  have siz {β : Type} {f : Nat → M (Mv (St α)) β} {o} (hf : Tears C nx g (f xs.length ⟨st C h k xs nx g, some j⟩) o) :
      Tears C nx g ((lift size >>= f) ⟨st C h k xs nx g, some j⟩) o := by
    rw [ok_bind (a := xs.length) (t := ⟨st C h k xs nx g, some j⟩) (by simp only [lift, size_st])]
    exact hf
  cases op with
  | pushBack v =>
    simp only [vmoves, allocs, decide_eq_true_eq] at hj ha
    refine Tears.bind (bnd v fun r => siz (Tears.bind ?_))
    exact grow_tears E tr hG hj (by simp) ha
  | emplaceBack v =>
    simp only [vmoves, allocs, decide_eq_true_eq] at hj ha
    refine Tears.bind (bnd v fun r => siz (Tears.bind ?_))
    exact grow_tears E tr hG hj (by simp) ha
  | insert pos v =>
    simp only [vmoves, allocs, decide_eq_true_eq] at hj ha
    refine Tears.bind (bnd v fun r => Tears.bind ?_)
    refine grow_tears E tr hG hj (by simp) fun hlt => ha ⟨?_, hlt⟩
    simp only [insMoves] at hj
    split at hj
    · assumption
    · omega
  | insertN pos m v =>
    simp only [vmoves, allocs, decide_eq_true_eq] at hj ha
    refine Tears.bind (bnd v fun r => Tears.bind ?_)
    refine grow_tears E tr hG hj (fun hp => ?_) fun hlt => ha ⟨?_, hlt⟩
    · have := hs hp
      by_cases hm : m = 0
      · rw [if_pos hm] at this
        subst hm
        exact Or.inr this
      · exact Or.inl (by omega)
    · simp only [insMoves] at hj
      split at hj
      · assumption
      · omega
  | insertRange pos ys =>
    simp only [vmoves, allocs, decide_eq_true_eq] at hj ha
    refine Tears.bind (Tears.bind ?_)
    refine grow_tears E tr hG hj (fun hp => ?_) fun hlt => ha ⟨?_, hlt⟩
    · have := hs hp
      cases ys with
      | nil => exact Or.inr (this rfl)
      | cons y ys => exact Or.inl (by simp)
    · simp only [insMoves] at hj
      split at hj
      · assumption
      · omega
  | popBack =>
    refine Tears.bind (siz (Tears.bind ?_))
    have := shrink_tears E tr hG (first := (xs.length - 1 : Int)) (last := xs.length) (by omega) hj (by intro _ h; omega)
    rw [show ((xs.length : Int) - (xs.length - 1)).toNat = 1 by omega] at this
    simp only [tornStep]
    rwa [show ((xs.length : Int) - (xs.length - 1)).toNat = 1 by omega]
  | erase pos =>
    refine Tears.bind ?_
    have := shrink_tears E tr hG (first := pos) (last := pos + 1) (by omega) hj (by intro _ h; omega)
    rw [show (pos + 1 - pos).toNat = 1 by omega] at this
    simp only [tornStep, eraseT]
    rwa [show (pos + 1 - pos).toNat = 1 by omega]
  | eraseRange first last =>
    refine Tears.bind ?_
    have hfl : first ≤ last := by
      by_contra hc
      simp only [vmoves, eraMoves] at hj
      rw [if_neg (by omega)] at hj
      omega
    simp only [eraseRangeT]
    rw [if_neg (by omega)]
    exact shrink_tears E tr hG hfl hj hs
  | resize m =>
    simp only [vmoves, allocs, decide_eq_true_eq] at hj ha
    exact Tears.bind (bnd _ fun r => Tears.bind (reserve_tears E tr hG hj ha))
  | resizeV m v =>
    simp only [vmoves, allocs, decide_eq_true_eq] at hj ha
    exact Tears.bind (bnd _ fun r => Tears.bind (reserve_tears E tr hG hj ha))
  | reserve m =>
    simp only [vmoves, allocs, decide_eq_true_eq] at hj ha
    exact Tears.bind (reserve_tears E tr hG hj ha)
  | shrinkToFit =>
    simp only [vmoves, allocs, decide_eq_true_eq] at hj ha
    cases h with
    | stat => simp at hj
    | dyn cc =>
      simp only [reduceCtorEq, Home.dyn.injEq, false_or] at hj
      by_cases hc : cc = xs.length
      · rw [if_pos hc] at hj; omega
      rw [if_neg hc] at hj
      refine Tears.bind ?_
      exact fit_tears E tr hG hj (Ne.symm hc) (by simpa [Safe] using hs) fun hlt => ha ⟨hlt, by simp, by simpa using hc⟩
  | revertToStatic =>
    simp only [vmoves] at hj
    cases h with
    | stat => simp at hj
    | dyn cc =>
      simp only [reduceCtorEq, Home.dyn.injEq, false_or] at hj
      by_cases hc : C.P.N < xs.length ∨ cc = xs.length
      · rw [if_pos hc] at hj; omega
      rw [if_neg hc] at hj
      refine Tears.bind (siz ?_)
      rw [ok_bind (a := st C (.dyn cc) k xs nx g) (t := ⟨st C (.dyn cc) k xs nx g, some j⟩) (by simp [lift])]
      rw [if_neg (by simp [st]), if_neg (by omega)]
      refine Tears.bind ?_
      exact fit_tears E tr hG hj (by omega) (by simpa [Safe] using hs) fun hlt => by omega
  | _ => simp only [vmoves] at hj; omega

end Itlib.SmallVector
