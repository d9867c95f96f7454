import Verif.SmallVector.MoveFault

/-! # Member functions in which a move throws (proof engineering) -/
namespace Itlib.SmallVector
open Itlib Spec
variable {α β γ : Type} (E : Elem α) (tr : α → α)
variable {C : Ctx α} {h h' : Home} {k k' : Nat} {b b' c c' : Buf α} {e : Loc} {n nx : Nat} {g : List (Buf α)} {xs : List α}

/-- `choose_data` of another buffer, when the allocation does not fail -/
theorem choose_move {d : Nat} (hN : 0 < C.P.N) (hw : WF C h k nx) (hm : moves C.P.N C.P.R d h)
    (ha : h.cap C.P.N < d → C.at' ≠ some 0) :
    ∃ a2 k' nx', chooseData C.P d (stB C h k b n nx g) =
        .ok (loc C.i k' (choose C.P.N C.P.R d h), (choose C.P.N C.P.R d h).cap C.P.N)
          (stB2 { C with at' := a2 } h k b (loc C.i k h) n (choose C.P.N C.P.R d h) k'
            (Buf.fresh ((choose C.P.N C.P.R d h).cap C.P.N)) nx' g) ∧
      loc C.i k h ≠ loc C.i k' (choose C.P.N C.P.R d h) ∧ WF C (choose C.P.N C.P.R d h) k' nx' ∧ WF C h k nx' ∧ nx ≤ nx' := by
  have alloc (q : Nat) (ha : C.at' ≠ some 0) : ∃ a2, allocate q (stB C h k b n nx g) =
      .ok (.dyn nx) { stB C h k b n nx g with
        heap := Function.update (stB C h k b n nx g).heap nx (some ⟨C.al, Buf.fresh q⟩), next := nx + 1, atick := a2 } := by
    simp only [allocate, stB_atick]
    cases h1 : C.at' with
    | none => exact ⟨none, by simp⟩
    | some j =>
      cases j with
      | zero => exact absurd h1 ha
      | succ j => exact ⟨some j, by simp⟩
  cases h with
  | stat =>
    simp only [moves] at hm
    obtain ⟨a2, hal⟩ := alloc d (ha hm)
    have hch : choose C.P.N C.P.R d .stat = .dyn d := by simp [choose, Nat.not_le.mpr hm]
    rw [hch]
    refine ⟨a2, nx, nx + 1, ?_, by simp [loc], wf_new hw (by omega), ⟨fun j hj => hw.free j (by omega), by intro c hc; cases hc⟩,
      by omega⟩
    simp [chooseData, hm, hal, loc, Home.cap]
    simp [stB, stB2, putStat, putHeap, loc, Home.cap]
  | dyn c =>
    have ho := hw.own c rfl
    simp only [moves] at hm
    by_cases hd : c < d
    · obtain ⟨a2, hal⟩ := alloc (growTo d d c) (ha hd)
      have hch : choose C.P.N C.P.R d (.dyn c) = .dyn (growTo d d c) := by simp [choose, Nat.not_le.mpr hd]
      have hg := growTo_ge d d c (by omega) (by omega)
      rw [hch]
      refine ⟨a2, nx, nx + 1, ?_, by simp only [loc, ne_eq, Loc.dyn.injEq]; omega, wf_new hw (by omega),
        ⟨fun j hj => hw.free j (by omega), by intro c' hc'; cases hc'; exact ⟨by omega, ho.2⟩⟩, by omega⟩
      simp [chooseData, hd, hal, loc, Home.cap, growTo_eq]
      simp [stB, stB2, putStat, putHeap, loc, Home.cap]
    · have hr : d < C.P.R := by omega
      have hch : choose C.P.N C.P.R d (.dyn c) = .stat := by simp [choose, Nat.not_lt.mp hd, hr]
      rw [hch]
      refine ⟨C.at', k, nx, ?_, by simp [loc], wf_stat hw _, hw, Nat.le_refl _⟩
      simp [chooseData, hd, hr, loc, Home.cap]
      simp [stB, stB2, putStat, putHeap, loc, Home.cap]

/-- What became of the memory around a vector: at most one block was left to nobody. -/
def Ext (C : Ctx α) (nx : Nat) (ls : List (Nat × List α)) (C1 : Ctx α) (nx1 : Nat) : Prop :=
  nx ≤ nx1 ∧ ∃ a, (ls = [] ∧ C1 = { C with at' := a }) ∨
    ∃ q B, ls = [(B.buf.cap, objects B.buf)] ∧ C1 = { C with at' := a, h0 := Function.update C.h0 q (some B) } ∧
      C.h0 q = none ∧ q < nx1 ∧ B.al = C.al

/-- The static buffer of a vector that is on the heap holds an object. -/
def Stained (s : St α) : Prop := s.v.isStatic = false ∧ ∃ i a, s.v.stat.cells i = .live a

/-- a member function that threw because a move did -/
def Tears (C : Ctx α) (nx : Nat) (g : List (Buf α)) (r : Res (Mv (St α)) β) :
    Option (Home × List α × List (Nat × List α)) → Prop
  | some (h1, xs1, ls) => ∃ C1 k1 nx1, r = .throw .element ⟨st C1 h1 k1 xs1 nx1 g, none⟩ ∧ Good C1 h1 k1 xs1 nx1 g ∧
      Ext C nx ls C1 nx1
  | none => ∃ t, r = .throw .element ⟨t, none⟩ ∧ (Dead t ∨ Stained t)

theorem Tears.bind {f : M (Mv (St α)) β} {f' : β → M (Mv (St α)) γ} {s : Mv (St α)} {o}
    (hf : Tears C nx g (f s) o) : Tears C nx g ((f >>= f') s) o := by
  cases o with
  | some x =>
    obtain ⟨C1, k1, nx1, h1, h2⟩ := hf
    exact ⟨C1, k1, nx1, by simp only [M.bind_apply, h1], h2⟩
  | none =>
    obtain ⟨t, h1, h2⟩ := hf
    exact ⟨t, by simp only [M.bind_apply, h1], h2⟩

/-- a state in which elements are on the way to another buffer -/
def Between (C : Ctx α) (h : Home) (k nx : Nat) (g : List (Buf α)) (h' : Home) (zs ys : List α) (t : St α) : Prop :=
  ∃ a2 k' nx' l, t = stB2 { C with at' := a2 } h k (Buf.ofList (h.cap C.P.N) zs) (loc C.i k h) zs.length h' k'
      (ofOpts (h'.cap C.P.N) l) nx' g ∧
    l.filterMap id = ys ∧ l.length ≤ h'.cap C.P.N ∧ loc C.i k h ≠ loc C.i k' h' ∧ WF C h' k' nx' ∧ WF C h k nx' ∧ nx ≤ nx'

theorem ofOpts_none (n : Nat) : ∀ {l : List (Option α)}, l.filterMap id = [] → ofOpts n l = Buf.fresh n := by
  intro l hl
  have : l = List.replicate l.length none := by
    rw [List.eq_replicate_iff]
    refine ⟨rfl, fun o ho => ?_⟩
    cases o with
    | none => rfl
    | some a =>
      have : a ∈ l.filterMap id := List.mem_filterMap.mpr ⟨some a, ho, rfl⟩
      rw [hl] at this
      simp at this
  rw [this]
  have := ofOpts_pad n l.length ([] : List (Option α))
  rw [List.nil_append] at this
  rw [this, ofOpts_nil]

/-- elements that were on the way to a larger buffer or to the static buffer, and are still where they were -/
theorem Between.tears {r : Res (Mv (St α)) β} {zs ys : List α} {t : St α} (hG : Good C h k xs nx g) (hz : zs.length = xs.length)
    (hb : Between C h k nx g h' zs ys t) (hr : r = .throw .element ⟨t, none⟩) :
    Tears C nx g r (match (generalizing := false) h' with
      | .dyn c => some (h, zs, [(c, ys)])
      | .stat => if ys = [] then some (h, zs, []) else none) := by
  obtain ⟨a2, k', nx', l, rfl, hl, hlen, hd, hw', hw, hle⟩ := hb
  have hlenz : zs.length ≤ h.cap C.P.N := by rw [hz]; exact hG.len
  cases h' with
  | dyn c =>
    have ho := hw'.own c rfl
    have hne : ∀ cc, h = .dyn cc → k ≠ k' := by
      intro cc hc
      subst hc
      simpa [loc] using hd
    refine ⟨{ C with at' := a2, h0 := Function.update C.h0 k' (some ⟨C.al, ofOpts c l⟩) }, k, nx', ?_, ?_, ?_⟩
    · rw [hr]
      congr 2
      simp only [st, stB, stB2, putStat, Home.cap]
      congr 1
      cases h with
      | stat => rfl
      | dyn cc => simp only [putHeap]; rw [Function.update_comm (hne cc rfl)]
    · refine ⟨hG.N, hG.R, ⟨?_, ?_⟩, hG.raw, hlenz⟩
      · intro j hj
        simp only
        rw [Function.update_of_ne (by omega)]
        exact hw.free j hj
      · intro cc hc
        have := hw.own cc hc
        simp only
        rw [Function.update_of_ne (hne cc hc)]
        exact this
    · refine ⟨hle, a2, Or.inr ⟨k', ⟨C.al, ofOpts c l⟩, ?_, rfl, ho.2.1, ho.1, rfl⟩⟩
      have : objects (ofOpts c l) = ys := by rw [← hl]; exact objects_ofOpts hlen
      simp only [ofOpts_cap, this]
  | stat =>
    simp only
    cases h with
    | stat => simp [loc] at hd
    | dyn cc =>
      by_cases hy : ys = []
      · rw [if_pos hy]
        rw [hy] at hl
        refine ⟨{ C with at' := a2 }, k, nx', ?_, ⟨hG.N, hG.R, ⟨hw.free, hw.own⟩, hG.raw, hlenz⟩, hle, a2, Or.inl ⟨rfl, rfl⟩⟩
        rw [hr, ofOpts_none _ hl]
        rfl
      · rw [if_neg hy]
        refine ⟨_, hr, Or.inr ⟨by simp, ?_⟩⟩
        refine live_of_objects (b := ofOpts (Home.stat.cap C.P.N) l) ?_
        rw [objects_ofOpts hlen, hl]
        exact hy

theorem take_map_some (j : Nat) (xs : List α) : (List.map some (xs.take j)).filterMap id = xs.take j := by
  rw [List.filterMap_map]; simp

/-! ### `grow_at`, `reserve` -/

theorem growAtT_between (hG : Good C h k xs nx g) {pos num j : Nat} (hp : pos ≤ xs.length)
    (hm : moves C.P.N C.P.R (xs.length + num) h) (ha : h.cap C.P.N < xs.length + num → C.at' ≠ some 0) (hj : j < xs.length) :
    ∃ t, growAtT C.P E tr pos num ⟨st C h k xs nx g, some j⟩ = .throw .element ⟨t, none⟩ ∧
      Between C h k nx g (choose C.P.N C.P.R (xs.length + num) h) (torn E tr j xs) (xs.take j) t := by
  have hge := choose_ge (d := xs.length + num) hG.N hG.R hG.wf
  obtain ⟨a2, k', nx', hch, hd, hw', hw, hle⟩ := choose_move (b := Buf.ofList (h.cap C.P.N) xs) (n := xs.length) (g := g)
    hG.N hG.wf hm ha
  generalize choose C.P.N C.P.R (xs.length + num) h = h' at *
  have h1 : ¬ ((pos : Int) < 0 ∨ (pos : Int) > (xs.length : Int)) := by omega
  have hlen := hG.len
  simp only [growAtT, M.bind_apply, lift, size_st, h1, if_false, Int.toNat_natCast]
  simp only [st]
  rw [hch]
  simp only [M.get_apply, stB2_bgn, if_neg (Ne.symm hd)]
  rw [← ofOpts_map, ← ofOpts_nil]
  by_cases hjp : j < pos
  · have := moveLoopT_fault E tr (C := { C with at' := a2 }) (e := loc C.i k h) (n := xs.length) (nx := nx') (g := g)
      (cb := h.cap C.P.N) (cc := h'.cap C.P.N) hd j pos xs [] [] hjp hp (by simp only [List.length_nil]; omega)
      (by simp only [List.length_nil]; omega)
    simp only [List.nil_append, List.length_nil] at this
    simp only [M.bind_apply, this]
    refine ⟨_, rfl, a2, k', nx', _, ?_, take_map_some j xs, ?_, hd, hw', hw, hle⟩
    · rw [ofOpts_map, torn_length]
    · simp; omega
  · have e1 : (xs.take pos).length = pos := by simp; omega
    have h2 := moveLoopT_ok E tr (C := { C with at' := a2 }) (e := loc C.i k h) (n := xs.length) (nx := nx') (g := g)
      (cb := h.cap C.P.N) (cc := h'.cap C.P.N) hd (xs.take pos) (xs.drop pos) [] [] (j - pos)
      (by simp only [List.length_nil, e1]; omega) (by simp only [List.length_nil, e1]; omega)
    simp only [List.nil_append, List.length_nil, List.take_append_drop, e1] at h2
    rw [show pos + (j - pos) = j by omega] at h2
    have e2 : ((xs.take pos).map some ++ List.replicate num (none : Option α)).length = pos + num := by simp; omega
    have e3 : ((xs.take pos).map (some ∘ E.mv)).length = pos := by simp; omega
    have h3 := moveLoopT_fault E tr (C := { C with at' := a2 }) (e := loc C.i k h) (n := xs.length) (nx := nx') (g := g)
      (cb := h.cap C.P.N) (cc := h'.cap C.P.N) hd (j - pos) (xs.length - pos) (xs.drop pos) ((xs.take pos).map (some ∘ E.mv))
      ((xs.take pos).map some ++ List.replicate num none) (by omega) (by simp) (by rw [e3]; omega) (by rw [e2]; omega)
    rw [e2, e3, ofOpts_pad] at h3
    simp only [List.map_append, List.map_map] at h2
    simp only [M.bind_apply, h2, h3]
    refine ⟨_, rfl, a2, k', nx', (xs.take pos).map some ++ List.replicate num none ++ ((xs.drop pos).take (j - pos)).map some,
      ?_, ?_, ?_, hd, hw', hw, hle⟩
    · rw [torn_length]
      congr 1
      rw [← ofOpts_map]
      congr 1
      have := torn_append E tr (j - pos) (xs.take pos) (xs.drop pos)
      rw [e1, List.take_append_drop, show pos + (j - pos) = j by omega] at this
      rw [this]
      simp
    · simp only [List.filterMap_append, take_map_some]
      rw [List.filterMap_replicate_of_none (by rfl), List.append_nil, ← List.take_add]
      congr 1
      omega
    · simp only [List.length_append, List.length_map, List.length_take, List.length_replicate, List.length_drop]
      omega

theorem reserveT_between (hG : Good C h k xs nx g) {d j : Nat} (hc : h.cap C.P.N < d) (ha : C.at' ≠ some 0) (hj : j < xs.length) :
    ∃ t, reserveT C.P E tr d ⟨st C h k xs nx g, some j⟩ = .throw .element ⟨t, none⟩ ∧ moves C.P.N C.P.R d h ∧
      Between C h k nx g (choose C.P.N C.P.R d h) (torn E tr j xs) (xs.take j) t := by
  have hge := choose_ge (d := d) hG.N hG.R hG.wf
  have hm : moves C.P.N C.P.R d h := by
    cases h with
    | stat => exact hc
    | dyn c => exact Or.inl hc
  obtain ⟨a2, k', nx', hch, hd, hw', hw, hle⟩ := choose_move (b := Buf.ofList (h.cap C.P.N) xs) (n := xs.length) (g := g)
    hG.N hG.wf hm (fun _ => ha)
  have hs : loc C.i k' (choose C.P.N C.P.R d h) ≠ .stat C.i := by
    cases h with
    | stat => simp only [choose, if_neg (show ¬ d ≤ C.P.N from Nat.not_le.mpr hc)]; simp [loc]
    | dyn c => simp only [choose, if_neg (show ¬ d ≤ c from Nat.not_le.mpr hc)]; simp [loc]
  generalize choose C.P.N C.P.R d h = h' at *
  have hlen := hG.len
  simp only [st]
  simp only [reserveT, M.bind_apply, lift, M.get_apply]
  rw [if_neg (by simp only [stB_cap]; omega)]
  simp only [M.bind_apply, lift]
  rw [hch]
  simp only [stB_bgn, stB_self, Ne.symm hd, hs, or_self, if_false, M.bind_apply, lift]
  have hsz : size (stB2 { C with at' := a2 } h k (Buf.ofList (h.cap C.P.N) xs) (loc C.i k h) xs.length h' k'
      (Buf.fresh (h'.cap C.P.N)) nx' g) = .ok xs.length (stB2 { C with at' := a2 } h k (Buf.ofList (h.cap C.P.N) xs)
        (loc C.i k h) xs.length h' k' (Buf.fresh (h'.cap C.P.N)) nx' g) := by simp [size]
  rw [hsz]
  rw [← ofOpts_map, ← ofOpts_nil]
  have := moveLoopT_fault E tr (C := { C with at' := a2 }) (e := loc C.i k h) (n := xs.length) (nx := nx') (g := g)
    (cb := h.cap C.P.N) (cc := h'.cap C.P.N) hd j xs.length xs [] [] hj (Nat.le_refl _) (by simp only [List.length_nil]; omega)
    (by simp only [List.length_nil]; omega)
  simp only [List.nil_append, List.length_nil] at this
  simp only [this]
  refine ⟨_, rfl, hm, a2, k', nx', _, ?_, take_map_some j xs, ?_, hd, hw', hw, hle⟩
  · rw [ofOpts_map, torn_length]
  · simp; omega

/-- what `grow_at` leaves -/
def growT (N R : Nat) (j d : Nat) (h : Home) (xs : List α) : Option (Home × List α × List (Nat × List α)) :=
  if moves N R d h then
    match choose N R d h with
    | .dyn c => some (h, torn E tr j xs, [(c, xs.take j)])
    | .stat => if j = 0 then some (h, torn E tr j xs, []) else none
  else none

theorem Between.grow {r : Res (Mv (St α)) β} {d j : Nat} {t : St α} (hG : Good C h k xs nx g) (hj : j < xs.length)
    (hm : moves C.P.N C.P.R d h)
    (hb : Between C h k nx g (choose C.P.N C.P.R d h) (torn E tr j xs) (xs.take j) t) (hr : r = .throw .element ⟨t, none⟩) :
    Tears C nx g r (growT E tr C.P.N C.P.R j d h xs) := by
  have := hb.tears hG (torn_length E tr j xs) hr
  simp only [growT, if_pos hm]
  have e : xs.take j = [] ↔ j = 0 := by
    cases xs with
    | nil => simp at hj
    | cons a xs => simp
  cases hc : choose C.P.N C.P.R d h with
  | dyn c => rw [hc] at this; exact this
  | stat => rw [hc] at this; simpa only [e] using this

theorem dead_stB' {q : Nat} (hq : q < n) (hr : b.cells q = .raw) : Dead (stB C h k b n nx g) :=
  dead_stB (C := { C with ct := none, at' := none }) hq hr

theorem grow_tears (hG : Good C h k xs nx g) {pos : Int} {num j : Nat} (hj : j < insMoves C.P.N C.P.R h xs.length pos num)
    (hn : 0 ≤ pos ∧ pos ≤ xs.length → 0 < num ∨ pos = xs.length ∨ moves C.P.N C.P.R (xs.length + num) h)
    (ha : h.cap C.P.N < xs.length + num → C.at' ≠ some 0) :
    Tears C nx g (growAtT C.P E tr pos num ⟨st C h k xs nx g, some j⟩) (growT E tr C.P.N C.P.R j (xs.length + num) h xs) := by
  by_cases hp : 0 ≤ pos ∧ pos ≤ xs.length
  swap
  · simp only [insMoves, if_neg hp] at hj; omega
  obtain ⟨p, rfl⟩ := Int.eq_ofNat_of_zero_le hp.1
  have hp' : p ≤ xs.length := by omega
  simp only [insMoves, if_pos hp, Int.toNat_natCast] at hj
  have hn := hn hp
  by_cases hm : moves C.P.N C.P.R (xs.length + num) h
  · rw [if_pos hm] at hj
    obtain ⟨t, h1, h2⟩ := growAtT_between E tr hG hp' hm ha hj
    exact h2.grow E tr hG hj hm h1
  · rw [if_neg hm] at hj
    simp only [growT, if_neg hm]
    have hge := choose_ge (d := xs.length + num) hG.N hG.R hG.wf
    rw [choose_stay hm] at hge
    have hn0 : 0 < num := by
      rcases hn with h1 | h1 | h1
      · exact h1
      · omega
      · exact absurd h1 hm
    obtain ⟨b', q, hq, hr, hf⟩ := shiftUpT_fault E tr (C := C) (h := h) (k := k) (n := xs.length + num) (nx := nx) (g := g)
      num p hn0 (xs.length - p) j (Buf.ofList (h.cap C.P.N) xs) hj (by simp only [Buf.ofList_cap]; omega)
      (fun i _ h2 => ⟨xs[i]'(by omega), Buf.ofList_live (by omega)⟩) (fun i h1 _ => Buf.ofList_raw (by omega))
    refine ⟨stB C h k b' (xs.length + num) nx g, ?_, Or.inl (dead_stB' (q := q) (by omega) hr)⟩
    have h1 : ¬ ((p : Int) < 0 ∨ (p : Int) > (xs.length : Int)) := by omega
    simp only [growAtT, M.bind_apply, lift, size_st, h1, if_false, Int.toNat_natCast]
    simp only [st]
    rw [chooseData_stay hm]
    simp only [M.get_apply, stB_bgn, if_true, M.bind_apply, lift, setEnd_stB, hf]

theorem reserve_tears (hG : Good C h k xs nx g) {d j : Nat} (hj : j < if h.cap C.P.N < d then xs.length else 0)
    (ha : h.cap C.P.N < d → C.at' ≠ some 0) :
    Tears C nx g (reserveT C.P E tr d ⟨st C h k xs nx g, some j⟩) (growT E tr C.P.N C.P.R j d h xs) := by
  by_cases hc : h.cap C.P.N < d
  · rw [if_pos hc] at hj
    obtain ⟨t, h1, hm, h2⟩ := reserveT_between E tr hG hc (ha hc) hj
    exact h2.grow E tr hG hj hm h1
  · rw [if_neg hc] at hj; omega

end Itlib.SmallVector
