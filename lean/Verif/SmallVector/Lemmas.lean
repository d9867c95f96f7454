import Verif.SmallVector.Exec
import Verif.StaticVector.Lemmas

/-! # Proof engineering for `small_vector` (no property statements here) -/
namespace Itlib.SmallVector
open Itlib Spec
open Itlib.StaticVector (gap gapFill gap_eq gapFill_full)
variable {α : Type}

/-! ### Loops between two buffers -/

theorem moveLoop_eq (mv : α → α) : ∀ (k p np : Nat) (b c : Buf α), p + k ≤ b.cap → np + k ≤ c.cap →
    (∀ i, p ≤ i → i < p + k → ∃ a, b.cells i = .live a) →
    (∀ i, np ≤ i → i < np + k → c.cells i = .raw) →
    ∃ b', moveLoop mv p np k b c = some (b', ⟨c.cap, fun i => if np ≤ i ∧ i < np + k then b.cells (i - np + p) else c.cells i⟩) ∧
      b'.cap = b.cap ∧ (∀ i, p ≤ i → i < p + k → ∃ a, b'.cells i = .live a) ∧
      (∀ i, i < p ∨ p + k ≤ i → b'.cells i = b.cells i) := by
  intro k
  induction k with
  | zero =>
    intro p np b c _ _ _ _
    refine ⟨b, ?_, rfl, by intro i _ _; omega, fun _ _ => rfl⟩
    simp only [moveLoop, Option.some.injEq, Prod.mk.injEq, true_and]
    ext i
    · rfl
    · simp only; rw [if_neg (by omega)]
  | succ k ih =>
    intro p np b c hb hc hl hr
    obtain ⟨a, ha⟩ := hl p (by omega) (by omega)
    have hr0 := hr np (by omega) (by omega)
    obtain ⟨b', h1, h2, h3, h4⟩ := ih (p+1) (np+1) ⟨b.cap, Function.update b.cells p (.live (mv a))⟩
      ⟨c.cap, Function.update c.cells np (.live a)⟩ (by simp only; omega) (by simp only; omega)
      (by
        intro i h1 h2
        have : i ≠ p := by omega
        simp only [Function.update_apply, this, if_false]
        exact hl i (by omega) (by omega))
      (by
        intro i h1 h2
        have : i ≠ np := by omega
        simp only [Function.update_apply, this, if_false]
        exact hr i (by omega) (by omega))
    refine ⟨b', ?_, h2, ?_, ?_⟩
    · simp only [moveLoop]
      rw [Buf.moveOut_live (by omega) ha]
      simp only [Option.bind_eq_bind, Option.bind_some]
      rw [Buf.construct_raw (by omega) hr0]
      simp only [Option.bind_some, h1]
      congr 2
      ext i
      · rfl
      · simp only [Function.update_apply]
        by_cases e : i = np
        · subst e
          rw [if_neg (by omega), if_pos rfl, if_pos (by omega)]
          simp [ha]
        · by_cases e2 : np + 1 ≤ i ∧ i < np + 1 + k
          · have e3 : ¬ (i - (np + 1) + (p + 1) = p) := by omega
            have e4 : np ≤ i ∧ i < np + (k + 1) := by omega
            have e5 : i - (np + 1) + (p + 1) = i - np + p := by omega
            simp only [e2, e4, e5 ▸ e3, e5, and_self, if_true, if_false]
          · have e4 : ¬ (np ≤ i ∧ i < np + (k + 1)) := by omega
            simp only [e, e2, e4, if_false]
    · intro i e1 e2
      by_cases e : i = p
      · subst e
        rw [h4 _ (by omega)]
        exact ⟨mv a, by simp⟩
      · exact h3 i (by omega) (by omega)
    · intro i e
      rw [h4 i (by omega)]
      have : i ≠ p := by omega
      simp [Function.update_apply, this]

theorem relocLoop_eq (mv : α → α) : ∀ (k p np : Nat) (b c : Buf α), p + k ≤ b.cap → np + k ≤ c.cap →
    (∀ i, p ≤ i → i < p + k → ∃ a, b.cells i = .live a) →
    (∀ i, np ≤ i → i < np + k → c.cells i = .raw) →
    relocLoop mv p np k b c = some (⟨b.cap, fun i => if p ≤ i ∧ i < p + k then .raw else b.cells i⟩,
      ⟨c.cap, fun i => if np ≤ i ∧ i < np + k then b.cells (i - np + p) else c.cells i⟩) := by
  intro k
  induction k with
  | zero =>
    intro p np b c _ _ _ _
    simp only [relocLoop, Option.some.injEq, Prod.mk.injEq]
    constructor <;> ext i
    · rfl
    · simp only; rw [if_neg (by omega)]
    · rfl
    · simp only; rw [if_neg (by omega)]
  | succ k ih =>
    intro p np b c hb hc hl hr
    obtain ⟨a, ha⟩ := hl p (by omega) (by omega)
    have hr0 := hr np (by omega) (by omega)
    simp only [relocLoop]
    rw [Buf.moveOut_live (by omega) ha]
    simp only [Option.bind_eq_bind, Option.bind_some]
    rw [Buf.construct_raw (by omega) hr0]
    simp only [Option.bind_some]
    rw [Buf.destroy_live (a := mv a) (by simp only; omega) (by simp)]
    simp only [Option.bind_some]
    rw [ih]
    · simp only [Option.some.injEq, Prod.mk.injEq]
      constructor <;> ext i
      · rfl
      · simp only [Function.update_apply]
        by_cases e : i = p
        · subst e; simp
        · by_cases e2 : p + 1 ≤ i ∧ i < p + 1 + k
          · rw [if_pos e2, if_pos (by omega)]
          · rw [if_neg e2, if_neg e, if_neg e, if_neg (by omega)]
      · rfl
      · simp only [Function.update_apply]
        by_cases e : i = np
        · subst e
          rw [if_neg (by omega), if_pos rfl, if_pos (by omega)]
          simp [ha]
        · by_cases e2 : np + 1 ≤ i ∧ i < np + 1 + k
          · have e3 : ¬ (i - (np + 1) + (p + 1) = p) := by omega
            have e4 : np ≤ i ∧ i < np + (k + 1) := by omega
            have e5 : i - (np + 1) + (p + 1) = i - np + p := by omega
            simp only [e2, e4, e5 ▸ e3, e5, and_self, if_true, if_false]
          · have e4 : ¬ (np ≤ i ∧ i < np + (k + 1)) := by omega
            simp only [e, e2, e4, if_false]
    · simp only; omega
    · simp only; omega
    · intro i h1 h2
      have : i ≠ p := by omega
      simp only [Function.update_apply, this, if_false]
      exact hl i (by omega) (by omega)
    · intro i h1 h2
      have : i ≠ np := by omega
      simp only [Function.update_apply, this, if_false]
      exact hr i (by omega) (by omega)

/-! ### States in normal form -/

/-- what stays the same during the calls on one vector: its name, its allocator, the blocks of the others, the throw
points -/
structure Ctx (α : Type) where
  P : Params
  i : Nat
  al : Nat
  h0 : Nat → Option (Block α)
  ct : Option Nat
  at' : Option Nat

def loc (i k : Nat) : Home → Loc
  | .stat => .stat i
  | .dyn _ => .dyn k

def putStat (h : Home) (b s : Buf α) : Buf α :=
  match h with
  | .stat => b
  | .dyn _ => s

def putHeap (h : Home) (k al : Nat) (b : Buf α) (hp : Nat → Option (Block α)) : Nat → Option (Block α) :=
  match h with
  | .stat => hp
  | .dyn _ => Function.update hp k (some ⟨al, b⟩)

/-- buffer `b` at home `h` (block `k`), `n` elements -/
def stB (C : Ctx α) (h : Home) (k : Nat) (b : Buf α) (n nx : Nat) (g : List (Buf α)) : St α :=
  ⟨⟨C.i, loc C.i k h, loc C.i k h, n, h.cap C.P.N, C.al, putStat h b (Buf.fresh C.P.N)⟩,
    putHeap h k C.al b C.h0, nx, g, C.ct, C.at'⟩

/-- in addition a second buffer `c` at home `h'`; `m_end` is arbitrary -/
def stB2 (C : Ctx α) (h : Home) (k : Nat) (b : Buf α) (e : Loc) (n : Nat) (h' : Home) (k' : Nat) (c : Buf α) (nx : Nat)
    (g : List (Buf α)) : St α :=
  ⟨⟨C.i, loc C.i k h, e, n, h.cap C.P.N, C.al, putStat h' c (putStat h b (Buf.fresh C.P.N))⟩,
    putHeap h' k' C.al c (putHeap h k C.al b C.h0), nx, g, C.ct, C.at'⟩

/-- the vector holds `xs` -/
def st (C : Ctx α) (h : Home) (k : Nat) (xs : List α) (nx : Nat) (g : List (Buf α)) : St α :=
  stB C h k (Buf.ofList (h.cap C.P.N) xs) xs.length nx g

/-- well-formedness -/
structure WF (C : Ctx α) (h : Home) (k nx : Nat) : Prop where
  free : ∀ j, nx ≤ j → C.h0 j = none
  own : ∀ c, h = .dyn c → k < nx ∧ C.h0 k = none ∧ C.P.N ≤ c

def AllRaw (g : List (Buf α)) : Prop := ∀ b ∈ g, ∀ i, b.cells i = .raw

section simps
variable (C : Ctx α) (h h' : Home) (k k' : Nat) (b c : Buf α) (e : Loc) (n nx : Nat) (g : List (Buf α)) (xs : List α)
@[simp] theorem stB_self : (stB C h k b n nx g).v.self = C.i := id rfl
@[simp] theorem stB_bgn : (stB C h k b n nx g).v.bgn = loc C.i k h := id rfl
@[simp] theorem stB_endp : (stB C h k b n nx g).v.endp = loc C.i k h := id rfl
@[simp] theorem stB_endo : (stB C h k b n nx g).v.endo = n := id rfl
@[simp] theorem stB_cap : (stB C h k b n nx g).v.cap = h.cap C.P.N := id rfl
@[simp] theorem stB_al : (stB C h k b n nx g).v.al = C.al := id rfl
@[simp] theorem stB_ctick : (stB C h k b n nx g).ctick = C.ct := id rfl
@[simp] theorem stB_atick : (stB C h k b n nx g).atick = C.at' := id rfl
@[simp] theorem stB_next : (stB C h k b n nx g).next = nx := id rfl
@[simp] theorem stB2_self : (stB2 C h k b e n h' k' c nx g).v.self = C.i := id rfl
@[simp] theorem stB2_bgn : (stB2 C h k b e n h' k' c nx g).v.bgn = loc C.i k h := id rfl
@[simp] theorem stB2_endp : (stB2 C h k b e n h' k' c nx g).v.endp = e := id rfl
@[simp] theorem stB2_endo : (stB2 C h k b e n h' k' c nx g).v.endo = n := id rfl
@[simp] theorem stB2_cap : (stB2 C h k b e n h' k' c nx g).v.cap = h.cap C.P.N := id rfl
@[simp] theorem stB2_al : (stB2 C h k b e n h' k' c nx g).v.al = C.al := id rfl
@[simp] theorem stB2_ctick : (stB2 C h k b e n h' k' c nx g).ctick = C.ct := id rfl
@[simp] theorem isStatic_stB : (stB C h k b n nx g).v.isStatic = decide (h = .stat) := by
  cases h <;> simp [Vec.isStatic, loc]
@[simp] theorem isStatic_stB2 : (stB2 C h k b e n h' k' c nx g).v.isStatic = decide (h = .stat) := by
  cases h <;> simp [Vec.isStatic, loc]
@[simp] theorem size_stB : size (stB C h k b n nx g) = .ok n (stB C h k b n nx g) := by
  simp [size]
@[simp] theorem size_st : size (st C h k xs nx g) = .ok xs.length (st C h k xs nx g) := by
  simp [st]
end simps

variable {C : Ctx α} {h h' : Home} {k k' : Nat} {b b' c c' : Buf α} {e : Loc} {n nx : Nat} {g : List (Buf α)}

theorem buf_stB : (stB C h k b n nx g).buf (loc C.i k h) = some b := by
  cases h <;> simp [St.buf, loc, stB, putStat, putHeap]

theorem setBuf_stB : (stB C h k b n nx g).setBuf (loc C.i k h) c = stB C h k c n nx g := by
  cases h <;> simp [St.setBuf, loc, stB, putStat, putHeap]

theorem onLoc_stB {f : Buf α → Option (Buf α)} (hf : f b = some b') :
    onLoc (loc C.i k h) f (stB C h k b n nx g) = .ok () (stB C h k b' n nx g) := by
  simp [onLoc, M.mem, buf_stB, hf, setBuf_stB]

theorem onLoc_stB_none {f : Buf α → Option (Buf α)} (hf : f b = none) :
    onLoc (loc C.i k h) f (stB C h k b n nx g) = .ub := by
  simp [onLoc, M.mem, buf_stB, hf]

theorem buf_src (hd : loc C.i k h ≠ loc C.i k' h') :
    (stB2 C h k b e n h' k' c nx g).buf (loc C.i k h) = some b := by
  cases h <;> cases h' <;> simp [loc] at hd <;> simp [St.buf, loc, stB2, putStat, putHeap, Function.update_apply, hd]

theorem buf_dst : (stB2 C h k b e n h' k' c nx g).buf (loc C.i k' h') = some c := by
  cases h <;> cases h' <;> simp [St.buf, loc, stB2, putStat, putHeap]

theorem setBuf_src (hd : loc C.i k h ≠ loc C.i k' h') :
    (stB2 C h k b e n h' k' c nx g).setBuf (loc C.i k h) b' = stB2 C h k b' e n h' k' c nx g := by
  cases h <;> cases h' <;> simp [loc] at hd <;>
    simp [St.setBuf, loc, stB2, putStat, putHeap, hd]
  rw [Function.update_comm (Ne.symm hd)]; simp

theorem setBuf_dst :
    (stB2 C h k b e n h' k' c nx g).setBuf (loc C.i k' h') c' = stB2 C h k b e n h' k' c' nx g := by
  cases h <;> cases h' <;> simp [St.setBuf, loc, stB2, putStat, putHeap]

theorem onLoc_src (hd : loc C.i k h ≠ loc C.i k' h') {f : Buf α → Option (Buf α)} (hf : f b = some b') :
    onLoc (loc C.i k h) f (stB2 C h k b e n h' k' c nx g) = .ok () (stB2 C h k b' e n h' k' c nx g) := by
  simp [onLoc, M.mem, buf_src hd, hf, setBuf_src hd]

theorem onLoc_dst {f : Buf α → Option (Buf α)} (hf : f c = some c') :
    onLoc (loc C.i k' h') f (stB2 C h k b e n h' k' c nx g) = .ok () (stB2 C h k b e n h' k' c' nx g) := by
  simp [onLoc, M.mem, buf_dst, hf, setBuf_dst]

theorem onLoc2_stB2 (hd : loc C.i k h ≠ loc C.i k' h') {f : Buf α → Buf α → Option (Buf α × Buf α)}
    (hf : f b c = some (b', c')) :
    onLoc2 (loc C.i k h) (loc C.i k' h') f (stB2 C h k b e n h' k' c nx g) =
      .ok () (stB2 C h k b' e n h' k' c' nx g) := by
  simp [onLoc2, M.mem, buf_src hd, buf_dst, hf, setBuf_src hd, setBuf_dst, hd]

theorem dealloc_src {cc : Nat} (hd : loc C.i k h ≠ loc C.i k' h') (hh : h = .dyn cc) (hc : b.cap = cc) :
    deallocate (loc C.i k h) (h.cap C.P.N) (stB2 C h k b e n h' k' c nx g) =
      .ok () { stB2 C h k b e n h' k' c nx g with
        heap := Function.update (putHeap h' k' C.al c (putHeap h k C.al b C.h0)) k none, graves := b :: g } := by
  subst hh
  cases h' <;> simp [loc] at hd <;> simp [deallocate, M.mem, loc, stB2, putHeap, Function.update_apply, hd, Home.cap, hc]

/-- giving back the first buffer and adopting the second -/
theorem release {m : Nat} (hw : WF C h k nx) (hd : loc C.i k h ≠ loc C.i k' h')
    (hr : ∀ i, b.cells i = .raw) (hc : b.cap = h.cap C.P.N) (hg : AllRaw g) :
    ∃ g', AllRaw g' ∧ (do freeDyn; setPtrs (loc C.i k' h') m (h'.cap C.P.N) : M (St α) Unit) (stB2 C h k b e n h' k' c nx g) =
      .ok () (stB C h' k' c m nx g') := by
  cases h with
  | stat =>
    refine ⟨g, hg, ?_⟩
    have hb : b = Buf.fresh C.P.N := by
      ext i
      · exact hc
      · rw [hr]; rfl
    simp only [freeDyn, M.bind_apply, M.get_apply, isStatic_stB2, decide_true, if_true, M.pure_apply, setPtrs,
      M.modify_apply]
    cases h' with
    | stat => simp [loc] at hd
    | dyn c' => simp [stB2, stB, putStat, putHeap, hb]
  | dyn cc =>
    refine ⟨b :: g, ?_, ?_⟩
    · intro b' hb'
      rcases List.mem_cons.mp hb' with rfl | hb'
      · exact hr
      · exact hg b' hb'
    have h1 := hw.own cc rfl
    simp only [freeDyn, M.bind_apply, M.get_apply, isStatic_stB2, decide_eq_true_eq, reduceCtorEq, if_false, stB2_bgn,
      stB2_cap]
    rw [dealloc_src hd rfl (by simpa [Home.cap] using hc)]
    simp only [setPtrs, M.modify_apply, stB, stB2, putHeap]
    congr 2
    cases h' with
    | stat => simp; exact h1.2.1.symm
    | dyn c2 =>
      simp [loc] at hd
      simp only
      rw [Function.update_comm (Ne.symm hd)]
      congr 1
      simp
      exact h1.2.1.symm

theorem growTo_eq (d : Nat) : ∀ f c, growLoop d f c = growTo d f c := by
  intro f
  induction f with
  | zero => intro c; rfl
  | succ f ih =>
    intro c
    simp only [growLoop, growTo]
    by_cases hc : c < d
    · rw [if_pos hc, if_neg (by omega), ih]
      congr 2; omega
    · rw [if_neg hc, if_pos (by omega)]

theorem growTo_ge (d : Nat) : ∀ f c, 0 < c → d ≤ c + f → d ≤ growTo d f c ∧ c ≤ growTo d f c := by
  intro f
  induction f with
  | zero => intro c hc hd; simp only [growTo]; omega
  | succ f ih =>
    intro c hc hd
    simp only [growTo]
    split
    · omega
    · have := ih ((3 * c + 1) / 2) (by omega) (by omega)
      omega

theorem chooseData_stay {d : Nat} (hm : ¬ moves C.P.N C.P.R d h) :
    chooseData C.P d (stB C h k b n nx g) = .ok (loc C.i k h, h.cap C.P.N) (stB C h k b n nx g) := by
  cases h with
  | stat =>
    simp only [moves] at hm
    simp [chooseData, show ¬ (C.P.N < d) from hm]
  | dyn c =>
    simp only [moves, not_or] at hm
    simp [chooseData, Home.cap, hm]

theorem choose_stay {N R d : Nat} (hm : ¬ moves N R d h) : choose N R d h = h := by
  cases h <;> simp_all [moves, choose]

theorem choose_ge {d : Nat} (hN : 0 < C.P.N) (hR : C.P.R ≤ C.P.N + 1) (hw : WF C h k nx) :
    d ≤ (choose C.P.N C.P.R d h).cap C.P.N := by
  cases h with
  | stat => simp only [choose]; split <;> simp [Home.cap]; assumption
  | dyn c =>
    have := hw.own c rfl
    simp only [choose]
    split
    · split <;> simp only [Home.cap] <;> omega
    · exact (growTo_ge d d c (by omega) (by omega)).1

theorem wf_stat (hw : WF C h k nx) (k' : Nat) : WF C .stat k' nx := ⟨hw.free, by intro c hc; cases hc⟩

theorem wf_new (hw : WF C h k nx) {c : Nat} (hc : C.P.N ≤ c) : WF C (.dyn c) nx (nx + 1) :=
  ⟨fun j hj => hw.free j (by omega), by intro c' hc'; cases hc'; exact ⟨by omega, hw.free nx (by omega), hc⟩⟩

theorem chooseData_move {d : Nat} (hN : 0 < C.P.N) (hat : C.at' = none) (hw : WF C h k nx)
    (hm : moves C.P.N C.P.R d h) :
    ∃ k' nx', chooseData C.P d (stB C h k b n nx g) =
        .ok (loc C.i k' (choose C.P.N C.P.R d h), (choose C.P.N C.P.R d h).cap C.P.N)
          (stB2 C h k b (loc C.i k h) n (choose C.P.N C.P.R d h) k'
            (Buf.fresh ((choose C.P.N C.P.R d h).cap C.P.N)) nx' g) ∧
      loc C.i k h ≠ loc C.i k' (choose C.P.N C.P.R d h) ∧ WF C (choose C.P.N C.P.R d h) k' nx' ∧ WF C h k nx' := by
  cases h with
  | stat =>
    simp only [moves] at hm
    have hch : choose C.P.N C.P.R d .stat = .dyn d := by simp [choose, Nat.not_le.mpr hm]
    rw [hch]
    refine ⟨nx, nx + 1, ?_, by simp [loc], wf_new hw (by omega), ⟨fun j hj => hw.free j (by omega), by intro c hc; cases hc⟩⟩
    simp [chooseData, hm, allocate, hat, loc, Home.cap]
    simp [stB, stB2, putStat, putHeap, loc, Home.cap, hat]
  | dyn c =>
    have ho := hw.own c rfl
    simp only [moves] at hm
    by_cases hd : c < d
    · have hch : choose C.P.N C.P.R d (.dyn c) = .dyn (growTo d d c) := by simp [choose, Nat.not_le.mpr hd]
      have hg := growTo_ge d d c (by omega) (by omega)
      rw [hch]
      refine ⟨nx, nx + 1, ?_, by simp only [loc, ne_eq, Loc.dyn.injEq]; omega, wf_new hw (by omega),
        ⟨fun j hj => hw.free j (by omega), by intro c' hc'; cases hc'; exact ⟨by omega, ho.2⟩⟩⟩
      simp [chooseData, hd, allocate, hat, loc, Home.cap, growTo_eq]
      simp [stB, stB2, putStat, putHeap, loc, Home.cap, hat]
    · have hr : d < C.P.R := by omega
      have hch : choose C.P.N C.P.R d (.dyn c) = .stat := by simp [choose, Nat.not_lt.mp hd, hr]
      rw [hch]
      refine ⟨k, nx, ?_, by simp [loc], wf_stat hw _, hw⟩
      simp [chooseData, hd, hr, loc, Home.cap]
      simp [stB, stB2, putStat, putHeap, loc, Home.cap]

/-! ### Reading -/

theorem loadRef_stB {i : Nat} {a : α} (hr : b.read i = some a) :
    loadRef (.slot (loc C.i k h) i) (stB C h k b n nx g) = .ok a (stB C h k b n nx g) := by
  simp [loadRef, M.load, buf_stB, hr]

theorem at_st {xs : List α} {i : Nat} (hi : i < xs.length) (hc : xs.length ≤ h.cap C.P.N) :
    at_ i (st C h k xs nx g) = .ok xs[i] (st C h k xs nx g) := by
  simp only [at_, M.bind_apply, size_st, hi, if_true, M.get_apply]
  simp only [st, stB_bgn]
  exact loadRef_stB (Buf.ofList_read hi hc)

theorem back_st {xs : List α} (hx : xs ≠ []) (hc : xs.length ≤ h.cap C.P.N) :
    back (st C h k xs nx g) = .ok (xs.getLast hx) (st C h k xs nx g) := by
  have : 0 < xs.length := List.length_pos_iff.mpr hx
  simp only [back, M.bind_apply, M.get_apply, st, stB_endo, stB_endp]
  rw [if_neg (by omega), loadRef_stB (Buf.ofList_read (show xs.length - 1 < xs.length by omega) hc)]
  simp [List.getLast_eq_getElem]

/-! ### Element construction -/

theorem emplaceAt_stB {i : Nat} {a : α} (hct : C.ct = none) (hb : b.construct i a = some b') :
    emplaceAt (loc C.i k h) i a (stB C h k b n nx g) = .ok () (stB C h k b' n nx g) := by
  simp only [emplaceAt, stB_ctick, hct]
  exact onLoc_stB hb

theorem emplaceAt_dst {i : Nat} {a : α} (hct : C.ct = none) (hb : c.construct i a = some c') :
    emplaceAt (loc C.i k' h') i a (stB2 C h k b e n h' k' c nx g) = .ok () (stB2 C h k b e n h' k' c' nx g) := by
  simp only [emplaceAt, stB2_ctick, hct]
  exact onLoc_dst hb

theorem setEnd_stB (m : Nat) : setEnd (loc C.i k h) m (stB C h k b n nx g) = .ok () (stB C h k b m nx g) := rfl

theorem setEnd_stB2 (l : Loc) (m : Nat) :
    setEnd l m (stB2 C h k b e n h' k' c nx g) = .ok () (stB2 C h k b l m h' k' c nx g) := rfl

theorem destroyAll_stB (hb : b.destroyRange 0 n = some b') :
    destroyAll (stB C h k b n nx g) = .ok () (stB C h k b' n nx g) := by
  simp only [destroyAll, M.bind_apply, size_stB, M.get_apply, stB_bgn]
  exact onLoc_stB hb

theorem destroyAll_st {xs : List α} (hc : xs.length ≤ h.cap C.P.N) :
    destroyAll (st C h k xs nx g) = .ok () (stB C h k (Buf.fresh (h.cap C.P.N)) xs.length nx g) :=
  destroyAll_stB (Buf.ofList_destroyAll hc)

theorem gapFill_construct {cap : Nat} {xs ys : List α} {pos n : Nat} {a : α} (hy : ys.length < n)
    (hc : xs.length + n ≤ cap) (hp : pos ≤ xs.length) :
    (gapFill cap xs pos n ys).construct (pos + ys.length) a = some (gapFill cap xs pos n (ys ++ [a])) := by
  rw [Buf.construct_raw (by simp only [gapFill]; omega) (by
    simp only [gapFill]
    rw [if_neg (by omega), if_pos (by omega)]
    simp)]
  congr 1
  ext i
  · rfl
  · simp only [gapFill, Function.update_apply]
    grind

/-! ### `grow_at` -/

theorem shiftUp_ofList (mv : α → α) {cap : Nat} {xs : List α} {pos n : Nat} (hp : pos ≤ xs.length)
    (hc : xs.length + n ≤ cap) (hn : 0 < n ∨ pos = xs.length) :
    (Buf.ofList cap xs).shiftUp mv n pos (xs.length - pos) = some (gap cap xs pos n) := by
  by_cases hn0 : n = 0
  · have : pos = xs.length := by omega
    subst hn0 this
    simp only [Nat.sub_self, Buf.shiftUp, Option.some.injEq]
    ext i
    · rfl
    · simp only [gap, Nat.add_zero, Nat.sub_zero]
      split <;> simp_all
  · rw [Buf.shiftUp_eq mv n pos (by omega) _ _ (by simp only [Buf.ofList_cap]; omega)
      (fun i _ h2 => ⟨xs[i]'(by omega), Buf.ofList_live (by omega)⟩) (fun i h1 _ => Buf.ofList_raw (by omega))]
    congr 1
    ext i
    · rfl
    · simp only [gap, Buf.ofList_cells]
      grind

theorem growAt_stay (E : Elem α) {xs : List α} {pos num : Nat} (hp : pos ≤ xs.length)
    (hm : ¬ moves C.P.N C.P.R (xs.length + num) h) (hc : xs.length + num ≤ h.cap C.P.N) (hn : 0 < num ∨ pos = xs.length) :
    growAt C.P E pos num (st C h k xs nx g) =
      .ok (loc C.i k h, pos) (stB C h k (gap (h.cap C.P.N) xs pos num) (xs.length + num) nx g) := by
  have h1 : ¬ ((pos : Int) < 0 ∨ (pos : Int) > (xs.length : Int)) := by omega
  simp only [growAt, M.bind_apply, size_st, h1, if_false, Int.toNat_natCast]
  simp only [st]
  rw [chooseData_stay hm]
  simp only [M.get_apply, stB_bgn, if_true, M.bind_apply, setEnd_stB]
  rw [onLoc_stB (shiftUp_ofList E.mv hp hc hn)]
  rfl

theorem growAt_move (E : Elem α) {xs : List α} {pos num : Nat} (hN : 0 < C.P.N) (hR : C.P.R ≤ C.P.N + 1) (hat : C.at' = none)
    (hw : WF C h k nx) (hg : AllRaw g)
    (hp : pos ≤ xs.length) (hm : moves C.P.N C.P.R (xs.length + num) h) (hc : xs.length ≤ h.cap C.P.N) :
    ∃ k' nx' g', growAt C.P E pos num (st C h k xs nx g) =
        .ok (loc C.i k' (choose C.P.N C.P.R (xs.length + num) h), pos)
          (stB C (choose C.P.N C.P.R (xs.length + num) h) k'
            (gap ((choose C.P.N C.P.R (xs.length + num) h).cap C.P.N) xs pos num) (xs.length + num) nx' g') ∧
      WF C (choose C.P.N C.P.R (xs.length + num) h) k' nx' ∧ AllRaw g' ∧
      loc C.i k h ≠ loc C.i k' (choose C.P.N C.P.R (xs.length + num) h) := by
  have h1 : ¬ ((pos : Int) < 0 ∨ (pos : Int) > (xs.length : Int)) := by omega
  have hge := choose_ge (d := xs.length + num) hN hR hw
  obtain ⟨k', nx', hch, hd, hw', hw2⟩ := chooseData_move (b := Buf.ofList (h.cap C.P.N) xs) (n := xs.length) (g := g)
    hN hat hw hm
  generalize choose C.P.N C.P.R (xs.length + num) h = h' at *
  simp only [growAt, M.bind_apply, size_st, h1, if_false, Int.toNat_natCast]
  simp only [st, hch, M.get_apply, stB2_bgn, Ne.symm hd, if_false, M.bind_apply]
  obtain ⟨b1, e1, c1, l1, r1⟩ := moveLoop_eq E.mv pos 0 0 (Buf.ofList (h.cap C.P.N) xs) (Buf.fresh (h'.cap C.P.N))
    (by simp only [Buf.ofList_cap]; omega) (by simp only [Buf.fresh]; omega)
    (fun i _ h2 => ⟨xs[i]'(by omega), Buf.ofList_live (by omega)⟩) (fun i _ _ => rfl)
  rw [onLoc2_stB2 hd e1]
  simp only
  obtain ⟨b2, e2, c2, l2, r2⟩ := moveLoop_eq E.mv (xs.length - pos) pos (pos + num) b1
    ⟨(Buf.fresh (h'.cap C.P.N) : Buf α).cap, fun i => if 0 ≤ i ∧ i < 0 + pos then
      (Buf.ofList (h.cap C.P.N) xs).cells (i - 0 + 0) else (Buf.fresh (h'.cap C.P.N)).cells i⟩
    (by rw [c1]; simp only [Buf.ofList_cap]; omega) (by simp only [Buf.fresh]; omega)
    (fun i h1 h2 => by
      rw [r1 i (by omega)]
      exact ⟨xs[i]'(by omega), Buf.ofList_live (by omega)⟩)
    (fun i h1 h2 => by simp only; rw [if_neg (by omega)]; rfl)
  rw [onLoc2_stB2 hd e2]
  simp only
  have hdes := Buf.destroyRange_eq xs.length 0 b2 (by rw [c2, c1]; simp only [Buf.ofList_cap]; omega) (by
    intro i _ hi
    by_cases hip : i < pos
    · rw [r2 i (by omega)]; exact l1 i (by omega) (by omega)
    · exact l2 i (by omega) (by omega))
  rw [onLoc_src hd hdes]
  simp only
  obtain ⟨g', hg', hrel⟩ := release (m := xs.length + num) (c := gap (h'.cap C.P.N) xs pos num) (n := xs.length) (e := loc C.i k h)
    (b := ⟨b2.cap, fun i => if 0 ≤ i ∧ i < 0 + xs.length then .raw else b2.cells i⟩) hw2 hd
    (by
      intro i
      simp only
      split
      · rfl
      · rw [r2 i (by omega), r1 i (by omega)]; exact Buf.ofList_raw (by omega))
    (by rw [c2, c1]; rfl) hg
  refine ⟨k', nx', g', ?_, hw', hg', hd⟩
  simp only [M.bind_apply] at hrel
  have hcell : (⟨(Buf.fresh (h'.cap C.P.N) : Buf α).cap, fun i => if pos + num ≤ i ∧ i < pos + num + (xs.length - pos) then
        b1.cells (i - (pos + num) + pos)
      else if 0 ≤ i ∧ i < 0 + pos then (Buf.ofList (h.cap C.P.N) xs).cells (i - 0 + 0)
      else (Buf.fresh (h'.cap C.P.N)).cells i⟩ : Buf α) = gap (h'.cap C.P.N) xs pos num := by
    ext i
    · rfl
    · simp only [gap]
      by_cases e1 : i < pos
      · rw [if_neg (by omega), if_pos (by omega), if_pos e1]; rfl
      · rw [if_neg e1]
        by_cases e2 : i < pos + num
        · rw [if_neg (by omega), if_neg (by omega), if_pos e2]; rfl
        · rw [if_neg e2]
          by_cases e3 : i < pos + num + (xs.length - pos)
          · rw [if_pos (by omega), r1 _ (by omega)]
            rw [show i - (pos + num) + pos = i - num by omega]
            rfl
          · rw [if_neg (by omega), if_neg (by omega), Buf.ofList_raw (by omega)]; rfl
  rw [hcell]
  revert hrel
  generalize hfd : freeDyn (stB2 C h k _ _ _ _ _ _ _ _) = res
  intro hrel
  cases res with
  | ok a s => simp only at hrel ⊢; rw [hrel]; rfl
  | throw e s => simp at hrel
  | ub => simp at hrel

theorem growAt_st (E : Elem α) {xs : List α} {pos num : Nat} (hN : 0 < C.P.N) (hR : C.P.R ≤ C.P.N + 1) (hat : C.at' = none)
    (hw : WF C h k nx) (hg : AllRaw g) (hp : pos ≤ xs.length)
    (hn : 0 < num ∨ pos = xs.length ∨ moves C.P.N C.P.R (xs.length + num) h) (hc : xs.length ≤ h.cap C.P.N) :
    ∃ k' nx' g', growAt C.P E pos num (st C h k xs nx g) =
        .ok (loc C.i k' (choose C.P.N C.P.R (xs.length + num) h), pos)
          (stB C (choose C.P.N C.P.R (xs.length + num) h) k'
            (gap ((choose C.P.N C.P.R (xs.length + num) h).cap C.P.N) xs pos num) (xs.length + num) nx' g') ∧
      WF C (choose C.P.N C.P.R (xs.length + num) h) k' nx' ∧ AllRaw g' ∧
      (¬ moves C.P.N C.P.R (xs.length + num) h → k' = k) := by
  by_cases hm : moves C.P.N C.P.R (xs.length + num) h
  · obtain ⟨k', nx', g', h1, h2, h3, _⟩ := growAt_move E hN hR hat hw hg hp hm hc
    exact ⟨k', nx', g', h1, h2, h3, fun h => absurd hm h⟩
  · have hge := choose_ge (d := xs.length + num) hN hR hw
    rw [choose_stay hm] at hge ⊢
    exact ⟨k, nx, g, growAt_stay E hp hm hge (by simpa [hm] using hn), hw, hg, fun _ => rfl⟩

theorem growAt_reject (P : Params) (E : Elem α) {xs : List α} {pos : Int} {num : Nat} (hp : ¬ (0 ≤ pos ∧ pos ≤ xs.length)) :
    growAt P E pos num (st C h k xs nx g) = .throw .outOfRange (st C h k xs nx g) := by
  simp only [growAt, M.bind_apply, size_st]
  rw [if_pos (by omega)]
  rfl

end Itlib.SmallVector
