import Verif.SmallVector.MoveRefit

/-! # Systems of vectors with moves that throw (proof engineering) -/
namespace Itlib.SmallVector
open Itlib Spec
variable {α β γ σ : Type} (E : Elem α) (tr : α → α)

theorem late_left {f f' : M (Mv σ) β} {g : M σ β} {s : σ} {n : Nat} (h : Late f g s n) (e : ∀ m, f' ⟨s, m⟩ = f ⟨s, m⟩) :
    Late f' g s n := by
  intro m hm
  have := h m hm
  rw [← e m] at this
  exact this

/-! ### `take_impl` -/

/-- `n` rounds of the loop of `take_impl` -/
def takeMany (mv : α → α) (i j p n : Nat) : M (Mem α) Unit := M.mem fun m => do
  let vi ← m.vec i
  let vj ← m.vec j
  let (bj, bi) ← moveLoop mv p vi.endo n vj.stat vi.stat
  let vi := { vi with stat := bi, endo := vi.endo + n }
  let vj := { vj with stat := bj }
  some { m with vec := Function.update (Function.update m.vec i (some vi)) j (some vj) }

theorem moveLoop_more (mv : α → α) (p np n : Nat) (b c : Buf α) :
    moveLoop mv p np (n+1) b c = (moveLoop mv p np 1 b c).bind fun x => moveLoop mv (p+1) (np+1) n x.1 x.2 := by
  simp only [moveLoop]
  cases b.moveOut mv p with
  | none => rfl
  | some x =>
    obtain ⟨a, b'⟩ := x
    simp only [Option.bind_eq_bind, Option.bind_some]
    cases c.construct np a <;> rfl

theorem takeLoopT_late {i j : Nat} (hij : i ≠ j) : ∀ (n p : Nat) (m : Mem α),
    Late (takeLoopT E tr i j p n) (takeMany E.mv i j p n) m n := by
  intro n
  induction n with
  | zero =>
    intro p m
    refine late_congr (late_pure () m) ?_
    simp only [takeMany, M.mem]
    cases h1 : m.vec i with
    | none => exact Or.inl rfl
    | some vi =>
      cases h2 : m.vec j with
      | none => exact Or.inl rfl
      | some vj =>
        refine Or.inr ?_
        simp only [moveLoop, Option.bind_eq_bind, Option.bind_some, Nat.add_zero, M.pure_apply]
        rw [← h1, ← h2]
        congr 2
        rw [Function.update_eq_self, Function.update_eq_self]
  | succ n ih =>
    intro p m
    refine late_congr (g := takeMany E.mv i j p 1 >>= fun _ => takeMany E.mv i j (p+1) n)
      (late_n (late_bind (late_may _ _ _) fun _ t _ => ih (p+1) t) (Nat.add_comm 1 n)) ?_
    simp only [takeMany, M.mem, M.bind_apply]
    cases h1 : m.vec i with
    | none => exact Or.inl rfl
    | some vi =>
      cases h2 : m.vec j with
      | none => exact Or.inl rfl
      | some vj =>
        simp only [Option.bind_eq_bind, Option.bind_some]
        rw [moveLoop_more]
        cases e1 : moveLoop E.mv p vi.endo 1 vj.stat vi.stat with
        | none => exact Or.inl rfl
        | some x =>
          obtain ⟨bj, bi⟩ := x
          simp only [Option.bind_some, Function.update_self, Function.update_of_ne hij]
          cases e2 : moveLoop E.mv (p+1) (vi.endo+1) n bj bi with
          | none => exact Or.inl rfl
          | some x =>
            refine Or.inr ?_
            simp only [Option.bind_some]
            congr 2
            have : vi.endo + 1 + n = vi.endo + (n + 1) := by omega
            rw [this]
            funext q
            simp only [Function.update_apply]
            split
            · rfl
            · split <;> rfl

theorem takeImplT_late (P : Params) {i j n : Nat} {m : Mem α}
    (hj : ∀ v, m.vec j = some v → v.self = j ∧ (v.isStatic = false → n = 0) ∧ (v.isStatic = true → n = v.endo)) :
    Late (takeImplT P E tr i j) (takeImpl P E i j) m n := by
  by_cases hij : i = j
  · have : ∀ s : Mem α, takeImpl P E i j s = .ub := by intro s; simp [takeImpl, M.mem, hij]
    intro mm _
    rw [this]; trivial
  cases hv : m.vec j with
  | none =>
    intro mm _
    have : takeImpl P E i j m = .ub := by simp only [takeImpl, M.mem, if_neg hij, hv]; cases m.vec i <;> rfl
    rw [this]; trivial
  | some vj =>
    obtain ⟨hself, h0, h1⟩ := hj vj hv
    cases hs : vj.isStatic with
    | false =>
      have := h0 hs
      subst this
      refine late_left (late_lift _ _) fun mm => ?_
      simp only [takeImplT, hij, if_false, M.bind_apply, lift, M.load, hv, hs, Bool.false_eq_true]
    | true =>
      have := h1 hs
      subst this
      by_cases he : vj.endp = vj.bgn
      swap
      · intro mm _
        have : takeImpl P E i j m = .ub := by
          simp only [takeImpl, M.mem, if_neg hij, hv]
          cases m.vec i with
          | none => rfl
          | some vi => simp only [Option.bind_eq_bind, Option.bind_some, hs, if_true, if_neg he]
        rw [this]; trivial
      refine late_congr (late_left (late_then fun _ _ _ => late_end (takeLoopT_late E tr hij _ _ _) fun _ _ _ => late_lift _ _)
        (g := at' i (takeImplT.setPtrs' (.stat i)) >>= fun _ => takeMany E.mv i j 0 vj.endo >>= fun _ => at' j (do
          onLoc (.stat j) (·.destroyRange 0 vj.endo)
          setPtrs (.stat j) 0 P.N)) (f := lift (at' i (takeImplT.setPtrs' (.stat i))) >>= fun _ =>
          takeLoopT E tr i j 0 vj.endo >>= fun _ => lift (at' j (do
            onLoc (.stat j) (·.destroyRange 0 vj.endo)
            setPtrs (.stat j) 0 P.N))) fun mm => ?_) ?_
      · simp only [takeImplT, hij, if_false, M.bind_apply, lift, M.load, hv, hs, if_true, he]
      · simp only [takeImpl, M.mem, M.bind_apply, at', if_neg hij, hv]
        cases hvi : m.vec i with
        | none => exact Or.inl rfl
        | some vi =>
          simp only [takeImplT.setPtrs', M.modify_apply, Mem.view, Mem.upd, takeMany, M.mem, Function.update_self,
            Function.update_of_ne (Ne.symm hij), hv, Option.bind_eq_bind, Option.bind_some, hs, if_true, if_pos he]
          cases e1 : moveLoop E.mv 0 0 vj.endo vj.stat vi.stat with
          | none => exact Or.inl rfl
          | some x =>
            obtain ⟨bj, bi⟩ := x
            simp only [Option.bind_some, Function.update_self]
            simp only [onLoc, M.mem, St.buf, hself, if_true, Option.bind_eq_bind, Option.bind_some]
            cases e2 : bj.destroyRange 0 vj.endo with
            | none => exact Or.inl rfl
            | some b =>
              refine Or.inr ?_
              simp only [Option.bind_some, St.setBuf, setPtrs, M.modify_apply, Nat.zero_add]
              congr 2
              funext q
              simp only [Function.update_apply]
              split
              · rfl
              · split <;> rfl

/-- the loop of `take_impl` with a move that throws -/
theorem takeLoopT_fault {i j : Nat} (hij : i ≠ j) : ∀ (q n p : Nat) (m : Mem α) (vi vj : Vec α), q < n → m.vec i = some vi →
    m.vec j = some vj → vj.self = j → p + n ≤ vj.stat.cap → vi.endo + n ≤ vi.stat.cap →
    (∀ x, p ≤ x → x < p + n → ∃ a, vj.stat.cells x = .live a) → (∀ x, vi.endo ≤ x → vi.stat.cells x = .raw) →
    ∃ t, takeLoopT E tr i j p n ⟨m, some q⟩ = .throw .element t := by
  intro q
  induction q with
  | zero =>
    intro n p m vi vj h1 hi hj hself hp _ hl _
    obtain ⟨n, rfl⟩ : ∃ q, n = q + 1 := ⟨n - 1, by omega⟩
    obtain ⟨a, ha⟩ := hl p (by omega) (by omega)
    have hb : (m.view vj).buf (.stat j) = some vj.stat := by simp [St.buf, Mem.view, hself]
    have := tear_gen tr (s := m.view vj) (l := .stat j) (p := p) (a := a) hb (by omega) ha
    refine ⟨⟨m.upd j ((m.view vj).setBuf (.stat j) ⟨vj.stat.cap, Function.update vj.stat.cells p (.live (tr a))⟩), none⟩, ?_⟩
    simp only [takeLoopT, M.bind_apply]
    rw [may_bad (t := m.upd j ((m.view vj).setBuf (.stat j) ⟨vj.stat.cap, Function.update vj.stat.cells p (.live (tr a))⟩))]
    simp only [at', hj, this]
  | succ q ih =>
    intro n p m vi vj h1 hi hj hself hp hc hl hr
    obtain ⟨n, rfl⟩ : ∃ q, n = q + 1 := ⟨n - 1, by omega⟩
    obtain ⟨a, ha⟩ := hl p (by omega) (by omega)
    have hm := moveLoop_one E.mv (b := vj.stat) (c := vi.stat) (p := p) (np := vi.endo) (a := a) (by omega) ha (by omega)
      (hr _ (Nat.le_refl _))
    simp only [takeLoopT, M.bind_apply]
    rw [may_ok (t := { m with vec := Function.update (Function.update m.vec i (some { vi with
        stat := ⟨vi.stat.cap, Function.update vi.stat.cells vi.endo (.live a)⟩, endo := vi.endo + 1 })) j (some { vj with
          stat := ⟨vj.stat.cap, Function.update vj.stat.cells p (.live (E.mv a))⟩ }) })
      (by simp only [M.mem, hi, hj, Option.bind_eq_bind, Option.bind_some, hm])]
    simp only
    refine ih n (p+1) _ { vi with stat := ⟨vi.stat.cap, Function.update vi.stat.cells vi.endo (.live a)⟩, endo := vi.endo + 1 }
      { vj with stat := ⟨vj.stat.cap, Function.update vj.stat.cells p (.live (E.mv a))⟩ } (by omega)
      (by simp only [Function.update_of_ne hij, Function.update_self]) (Function.update_self ..)
      hself (by simp only; omega) (by simp only; omega) ?_ ?_
    · intro x hx1 hx2
      simp only [Function.update_apply]
      rw [if_neg (by omega)]
      exact hl x (by omega) (by omega)
    · intro x hx
      simp only [Function.update_apply]
      simp only at hx
      rw [if_neg (by omega)]
      exact hr x (by omega)

theorem takeImplT_fault (P : Params) {i j q : Nat} (hij : i ≠ j) {m : Mem α} {vi vj : Vec α} {xs : List α}
    (hi : m.vec i = some vi) (hj : m.vec j = some vj) (hself : vj.self = j) (hs : vj.isStatic = true) (he : vj.endp = vj.bgn)
    (hst : vj.stat = Buf.ofList P.N xs) (hend : vj.endo = xs.length) (hlen : xs.length ≤ P.N) (hvi : vi.stat = Buf.fresh P.N)
    (hq : q < xs.length) : ∃ t, takeImplT P E tr i j ⟨m, some q⟩ = .throw .element t := by
  have h1 : at' i (takeImplT.setPtrs' (.stat i)) m = .ok () { m with
      vec := Function.update m.vec i (some { vi with bgn := .stat i, endp := .stat i, endo := 0 }) } := by
    simp only [at', hi, takeImplT.setPtrs', M.modify_apply, Mem.view, Mem.upd]
  obtain ⟨t, ht⟩ := takeLoopT_fault E tr hij q xs.length 0 { m with
      vec := Function.update m.vec i (some { vi with bgn := .stat i, endp := .stat i, endo := 0 }) }
      { vi with bgn := .stat i, endp := .stat i, endo := 0 } vj hq (by simp) (by simp [Function.update_of_ne (Ne.symm hij), hj])
      hself (by rw [hst, Buf.ofList_cap]; omega) (by simp only [hvi, Buf.fresh]; omega)
      (by
        intro x _ hx
        rw [hst]
        exact ⟨_, Buf.ofList_live (by omega)⟩)
      (by intro x _; simp [hvi, Buf.fresh])
  refine ⟨t, ?_⟩
  simp only [takeImplT, hij, if_false, M.bind_apply, lift, M.load, hj, hs, if_true, he, h1, hend, ht]

/-! ### Moving vectors -/

theorem construct_keep {P : Params} {i al : Nat} {m t : Mem α} {u : Unit} (h : construct P i al m = .ok u t) (j : Nat) (hj : (m.vec j).isSome) :
    j ≠ i ∧ t.vec j = m.vec j := by
  simp only [construct, M.mem] at h
  cases hi : m.vec i with
  | some v => rw [hi] at h; simp at h
  | none =>
    rw [hi] at h
    simp only [Res.ok.injEq, true_and] at h
    subst h
    have : j ≠ i := by rintro rfl; rw [hi] at hj; simp at hj
    exact ⟨this, by simp [Function.update_of_ne this]⟩

theorem at'_keep {f : M (St α) β} {i : Nat} {m t : Mem α} {b : β} (h : at' i f m = .ok b t) (j : Nat) (hj : j ≠ i) :
    t.vec j = m.vec j := by
  simp only [at'] at h
  cases hi : m.vec i with
  | none => rw [hi] at h; simp at h
  | some v =>
    rw [hi] at h
    simp only at h
    cases e : f (m.view v) with
    | ok b s => rw [e] at h; simp only [Res.ok.injEq] at h; rw [← h.2]; simp [Mem.upd, Function.update_of_ne hj]
    | throw x s => rw [e] at h; simp at h
    | ub => rw [e] at h; simp at h

theorem moveCtorT_late (P : Params) {i j n : Nat} {m : Mem α} {vj : Vec α} (hv : m.vec j = some vj) (hself : vj.self = j)
    (h0 : vj.isStatic = false → n = 0) (h1 : vj.isStatic = true → n = vj.endo) :
    Late (moveCtorT P E tr i j) (moveCtor P E i j) m n := by
  refine late_congr (late_left (f := lift (construct P i vj.al) >>= fun _ =>
      lift (at' i (M.modify fun s => { s with v := { s.v with cap := vj.cap } })) >>= fun _ => takeImplT P E tr i j)
      (g := construct P i vj.al >>= fun _ => at' i (M.modify fun s => { s with v := { s.v with cap := vj.cap } }) >>= fun _ =>
        takeImpl P E i j) (late_then fun _ t1 ht1 => late_then fun _ t2 ht2 => takeImplT_late E tr P ?_) ?_) ?_
  · intro v hv2
    obtain ⟨e1, e2⟩ := construct_keep ht1 j (by rw [hv]; rfl)
    rw [at'_keep ht2 j e1, e2, hv] at hv2
    cases hv2
    exact ⟨hself, h0, h1⟩
  · intro mm
    simp only [moveCtorT, M.bind_apply, lift, M.load, hv]
  · right
    simp only [moveCtor, M.bind_apply, M.get_apply, hv]

theorem moveAssignT_late (P : Params) {i j n : Nat} {m : Mem α} (hij : i ≠ j) {vj : Vec α} (hv : m.vec j = some vj) (hself : vj.self = j)
    (h0 : vj.isStatic = false → n = 0) (h1 : vj.isStatic = true → n = vj.endo) :
    Late (moveAssignT P E tr i j) (moveAssign P E i j) m n := by
  refine late_congr (late_left (f := lift (at' i (do
        destroyAll
        freeDyn
        M.modify fun s => { s with v := { s.v with al := vj.al, cap := vj.cap } })) >>= fun _ => takeImplT P E tr i j)
      (g := at' i (do
        destroyAll
        freeDyn
        M.modify fun s => { s with v := { s.v with al := vj.al, cap := vj.cap } }) >>= fun _ =>
        takeImpl P E i j) (late_then fun _ t1 ht1 => takeImplT_late E tr P ?_) ?_) ?_
  · intro v hv2
    rw [at'_keep ht1 j (Ne.symm hij), hv] at hv2
    cases hv2
    exact ⟨hself, h0, h1⟩
  · intro mm
    simp only [moveAssignT, if_neg hij]
    simp only [M.bind_apply, lift, M.load, hv]
  · right
    simp only [moveAssign, if_neg hij]
    simp only [M.bind_apply, M.get_apply, hv]

variable {P : Params} {L : Nat → Option (Block α)} {y : Sys α} {blk : Nat → Nat} {m : Mem α}

/-- with an empty vector `i` -/
def Mem.fresh' (m : Mem α) (i cap al N : Nat) (c a : Option Nat) : Mem α :=
  ⟨Function.update m.vec i (some ⟨i, .stat i, .stat i, 0, cap, al, Buf.fresh N⟩), m.heap, m.next, m.graves, c, a⟩

theorem moveCtorT_fault (hM : MRep P L y blk m) {i j q : Nat} {w : V α} (hi : y i = none)
    (hw : y j = some w) (hs : w.home = .stat) (hq : q < w.xs.length) (c a : Option Nat) :
    ∃ t, moveCtorT P E tr i j ⟨m.tk c a, some q⟩ = .throw .element t := by
  have hij : i ≠ j := by rintro rfl; rw [hi] at hw; simp at hw
  have hvj : (m.tk c a).vec j = some (vecRep P j (blk j) w) := by show m.vec j = _; rw [hM.vec j, hw]; rfl
  have hvi : (m.tk c a).vec i = none := by show m.vec i = _; rw [hM.vec i, hi]; rfl
  have e1 : construct P i (vecRep P j (blk j) w).al (m.tk c a) = .ok () (m.fresh' i P.N w.al P.N c a) := by
    simp only [construct, M.mem, hvi]
    rfl
  have hlen := hM.len j w hw
  rw [hs] at hlen
  have e2 : ∀ cap, at' i (M.modify fun s => { s with v := { s.v with cap := cap } }) (m.fresh' i P.N w.al P.N c a) = .ok () (m.fresh' i cap w.al P.N c a) := by
    intro cap
    simp only [at', Mem.fresh', Function.update_self, M.modify_apply, Mem.view, Mem.upd, Function.update_idem]
  obtain ⟨t, ht⟩ := takeImplT_fault E tr P (q := q) hij (m := (m.fresh' i ((vecRep P j (blk j) w).cap) w.al P.N c a)) (xs := w.xs)
      (vj := vecRep P j (blk j) w) (Function.update_self ..)
      (by simp only [Mem.fresh', Function.update_of_ne (Ne.symm hij)]; exact hvj) rfl
      (by simp [vecRep, Vec.isStatic, hs, loc]) rfl (by simp [vecRep, hs, putStat, Home.cap]) rfl hlen rfl hq
  refine ⟨t, ?_⟩
  simp only [moveCtorT, M.bind_apply, lift, M.load, hvj, e1, e2, ht]

theorem moveAssignT_fault (hN : 0 < P.N) (hR : P.R ≤ P.N + 1) (hM : MRep P L y blk m) {i j q : Nat} {v w : V α} (hij : i ≠ j)
    (hv : y i = some v) (hw : y j = some w) (hs : w.home = .stat) (hq : q < w.xs.length) (c a : Option Nat) :
    ∃ t, moveAssignT P E tr i j ⟨m.tk c a, some q⟩ = .throw .element t := by
  have hvj : (m.tk c a).vec j = some (vecRep P j (blk j) w) := by show m.vec j = _; rw [hM.vec j, hw]; rfl
  obtain ⟨m1, vi, e1, _, e2, _, _, _, e3, e4⟩ := dropOld_mrep hN hR (vecRep P j (blk j) w).al (vecRep P j (blk j) w).cap hM hv
  have hlen := hM.len j w hw
  rw [hs] at hlen
  have e5 : ∃ m2, at' i (do destroyAll; freeDyn; M.modify fun s => { s with v := { s.v with
        al := (vecRep P j (blk j) w).al, cap := (vecRep P j (blk j) w).cap } }) (m.tk c a) = .ok () m2 ∧ m2.vec = m1.vec := by
    have := (at'_okf (m := m) (i := i) (f := (do destroyAll; freeDyn; M.modify fun s => { s with v := { s.v with
        al := (vecRep P j (blk j) w).al, cap := (vecRep P j (blk j) w).cap } })) (nc := 0) (na := 0) (fun v _ =>
          Frame.bind0 (destroyAll_frame _) fun _ _ _ _ => Frame.bind0 (freeDyn_frame _) fun _ _ _ _ =>
            Frame.modify fun _ _ => rfl)).run c a
      (enough_zero _) (enough_zero _) () m1 (by rw [er_mrep hM]; exact e1)
    exact ⟨_, this.1, rfl⟩
  obtain ⟨m2, e5, e6⟩ := e5
  obtain ⟨t, ht⟩ := takeImplT_fault E tr P (q := q) hij (m := m2) (xs := w.xs) (vj := vecRep P j (blk j) w)
      (by rw [e6]; exact e2) (by rw [e6, e4 j (Ne.symm hij)]; exact hvj) rfl
      (by simp [vecRep, Vec.isStatic, hs, loc]) rfl (by simp [vecRep, hs, putStat, Home.cap]) rfl hlen e3 hq
  refine ⟨t, ?_⟩
  simp only [moveAssignT, if_neg hij]
  have e7 : (lift (M.load fun m => m.vec j) : M (Mv (Mem α)) (Vec α)) ⟨m.tk c a, some q⟩ =
      .ok (vecRep P j (blk j) w) ⟨m.tk c a, some q⟩ := by simp only [lift, M.load, hvj]
  rw [ok_bind e7, ok_bind (a := ()) (t := ⟨m2, some q⟩) (by simp only [lift]; rw [e5]), ht]

/-! ### A vector that does not survive -/

/-- Even if the destructor of vector `i` ends, an object that was never destroyed is left behind in its storage. -/
def Spoiled (i : Nat) (m : Mem α) : Prop := ∀ m', destruct i m = .ok () m' → ¬ AllRaw m'.graves

theorem dtorBody_stat {s t : St α} {u : Unit} (h : dtorBody s = .ok u t) (hs : s.v.isStatic = false) : t.v.stat = s.v.stat := by
  have hd := hs
  simp only [Vec.isStatic, decide_eq_false_iff_not] at hs
  simp only [dtorBody, destroyAll, size, M.bind_apply, M.get_apply] at h
  by_cases he : s.v.endp = s.v.bgn
  swap
  · simp [he] at h
  simp only [he, if_true, M.pure_apply, onLoc, M.mem] at h
  cases hb : s.v.bgn with
  | stat j =>
    rw [hb] at h hs
    have : j ≠ s.v.self := by rintro rfl; exact hs rfl
    simp [St.buf, this] at h
  | dyn k =>
    rw [hb] at h
    cases e2 : s.heap k with
    | none => simp [St.buf, e2] at h
    | some B =>
      cases e3 : B.buf.destroyRange 0 s.v.endo with
      | none => simp [St.buf, e2, e3] at h
      | some b =>
        simp only [St.buf, e2, e3, Option.map_some, Option.bind_eq_bind, Option.bind_some, St.setBuf, freeDyn, M.bind_apply,
          M.get_apply, hd, Bool.false_eq_true, if_false] at h
        simp only [hb, deallocate, M.mem, Function.update_self] at h
        split at h
        · rename_i heq
          split at heq
          · simp only [Option.some.injEq] at heq
            simp only [Res.ok.injEq] at h
            rw [← h.2, ← heq]
          · simp at heq
        · simp at h

theorem stained_spoiled {i : Nat} {s : St α} (h : Stained s) : Spoiled i (m.upd i s) := by
  intro m' hd hraw
  obtain ⟨h1, p, a, h2⟩ := h
  have e1 : (m.upd i s).vec i = some s.v := by simp [Mem.upd]
  have e2 : (m.upd i s).view s.v = s := rfl
  simp only [destruct, M.bind_apply, at', e1, e2] at hd
  cases e : dtorBody s with
  | throw x t => rw [e] at hd; simp at hd
  | ub => rw [e] at hd; simp at hd
  | ok u t =>
    rw [e] at hd
    simp only [M.mem, Mem.upd, Function.update_self, Option.bind_eq_bind, Option.bind_some, Res.ok.injEq, true_and] at hd
    subst hd
    have := hraw t.v.stat (by simp) p
    rw [dtorBody_stat e h1, h2] at this
    simp at this

/-! ### Blocks that are lost -/

/-- `L` holds exactly the blocks `ls`. -/
def Lost (L : Nat → Option (Block α)) (ls : List (Leak α)) : Prop :=
  ∃ ks : List Nat, ks.Nodup ∧ (∀ k, (L k).isSome ↔ k ∈ ks) ∧
    List.Forall₂ (fun k l => ∃ B, L k = some B ∧ B.al = l.al ∧ B.buf.cap = l.cap ∧ objects B.buf = l.xs) ks ls

theorem Lost.more {L : Nat → Option (Block α)} {ls : List (Leak α)} {q : Nat} (h : Lost L ls) (hq : L q = none) (B : Block α) :
    Lost (Function.update L q (some B)) (ls ++ [⟨B.al, B.buf.cap, objects B.buf⟩]) := by
  obtain ⟨ks, h1, h2, h3⟩ := h
  have hk : q ∉ ks := by rw [← h2, hq]; simp
  refine ⟨ks ++ [q], ?_, ?_, ?_⟩
  · rw [List.nodup_append]
    exact ⟨h1, by simp, by rintro a ha b hb rfl; simp at hb; exact hk (hb ▸ ha)⟩
  · intro k
    by_cases e : k = q
    · subst e; simp
    · simp only [Function.update_of_ne e, h2, List.mem_append, List.mem_singleton, e, or_false]
  · refine List.rel_append ?_ ?_
    · have : ∀ (ks : List Nat) (ls : List (Leak α)), q ∉ ks →
          List.Forall₂ (fun k l => ∃ B, L k = some B ∧ B.al = l.al ∧ B.buf.cap = l.cap ∧ objects B.buf = l.xs) ks ls →
          List.Forall₂ (fun k l => ∃ B', Function.update L q (some B) k = some B' ∧ B'.al = l.al ∧ B'.buf.cap = l.cap ∧
            objects B'.buf = l.xs) ks ls := by
        intro ks ls hk h
        induction h with
        | nil => exact .nil
        | cons h _ ih =>
          simp only [List.mem_cons, not_or] at hk
          exact .cons (by rwa [Function.update_of_ne (Ne.symm hk.1)]) (ih hk.2)
      exact this ks ls hk h3
    · exact .cons ⟨B, by simp, rfl, rfl, rfl⟩ .nil

theorem leak_mrep {q nx : Nat} (hM : MRep P L y blk m) (hq : m.heap q = none) (hx : q < nx) (hn : m.next ≤ nx) (B : Block α) :
    MRep P (Function.update L q (some B)) y blk ⟨m.vec, Function.update m.heap q (some B), nx, m.graves, none, none⟩ := by
  have hne : ∀ i v c, y i = some v → v.home = .dyn c → blk i ≠ q := by
    intro i v c hi hc e
    have := (hM.own i v c hi hc).1
    rw [e, hq] at this
    simp at this
  refine ⟨hM.vec, ?_, ?_, ?_, hM.inj, ?_, hM.raw, rfl, rfl, hM.len⟩
  · intro i v c hi hc
    simp only [Function.update_of_ne (hne i v c hi hc)]
    exact hM.own i v c hi hc
  · intro k b hb
    by_cases e : k = q
    · subst e; right; simpa using hb
    · simp only [Function.update_of_ne e] at hb ⊢
      exact hM.only k b hb
  · intro k b hb
    by_cases e : k = q
    · subst e; exact ⟨by simpa using hb, fun i v c hi hc => hne i v c hi hc⟩
    · simp only [Function.update_of_ne e] at hb ⊢
      exact hM.keep k b hb
  · intro k hk
    simp only at hk
    simp only [Function.update_of_ne (show k ≠ q by omega)]
    exact hM.free k (by omega)

theorem lost_none (hM : MRep P L y blk m) {q : Nat} (hq : m.heap q = none) : L q = none := by
  cases e : L q with
  | none => rfl
  | some b => have := (hM.keep q b e).1; rw [hq] at this; simp at this

/-! ### All calls -/

theorem mfault_none {mm : Option Nat} {n : Nat} (h : mfault mm n = none) : Enough mm n := by
  cases mm with
  | none => trivial
  | some k =>
    simp only [mfault] at h
    simp only [Enough]
    by_contra hk
    rw [if_pos (by omega)] at h
    simp at h

theorem mfault_some {mm : Option Nat} {n k : Nat} (h : mfault mm n = some k) : mm = some k ∧ k < n := by
  cases mm with
  | none => simp [mfault] at h
  | some j =>
    simp only [mfault] at h
    split at h
    · simp only [Option.some.injEq] at h; subst h; exact ⟨rfl, by assumption⟩
    · simp at h

/-- with other throw points -/
theorem good_tk {C : Ctx α} {h : Home} {k nx : Nat} {xs : List α} {g : List (Buf α)} (hG : Good C h k xs nx g) (c a : Option Nat) :
    Good { C with ct := c, at' := a } h k xs nx g := ⟨hG.N, hG.R, ⟨hG.wf.free, hG.wf.own⟩, hG.raw, hG.len⟩

/-- how a call without moves that throw ends -/
def VOut.ofT : Option (Reply α × Mem α) → VOut α
  | some (r, m) => .ret r m
  | none => .ub

theorem mstep_sealed {N R : Nat} {op : MOp α} {r : Reply α × Sys α} (h : mstep N R E op y = some r) (hs : sealed op = true) :
    r.1 = .done := by
  cases op <;> simp only [sealed, Bool.false_eq_true] at hs
  · simp only [mstep, Option.bind_eq_bind, Option.bind_eq_some_iff] at h
    obtain ⟨w, hw, h⟩ := h
    split at h <;> simp at h
    rw [← h]
  · simp only [mstep, Option.bind_eq_bind, Option.bind_eq_some_iff] at h
    obtain ⟨v, hv, w, hw, h⟩ := h
    split at h <;> simp at h <;> rw [← h]

theorem late_sealed (hM : MRep P L y blk m) {op : MOp α} {r : Reply α × Sys α} (h : mstep P.N P.R E op y = some r)
    (hs : sealed op = true) (c a : Option Nat) : Late (vexec P E tr op) (mexec P E op) (m.tk c a) (cmoves P.N P.R op y) := by
  have hstat : ∀ j (w : V α), (vecRep P j (blk j) w).isStatic = true ↔ w.home = .stat := by
    intro j w
    cases hh : w.home <;> simp [vecRep, Vec.isStatic, hh, loc]
  cases op <;> simp only [sealed, Bool.false_eq_true] at hs
  case moveCtor i j =>
    simp only [mstep, Option.bind_eq_bind, Option.bind_eq_some_iff] at h
    obtain ⟨w, hw, h⟩ := h
    split at h
    · simp at h
    rename_i hi
    have hij : i ≠ j := by rintro rfl; rw [hw] at hi; simp at hi
    have hvj : (m.tk c a).vec j = some (vecRep P j (blk j) w) := by show m.vec j = _; rw [hM.vec j, hw]; rfl
    refine late_end (moveCtorT_late E tr P hvj rfl ?_ ?_) fun _ _ _ => late_pure _ _
    · intro hf
      simp only [cmoves, hw]
      rw [if_neg]
      rintro ⟨h1, _⟩
      rw [(hstat j w).2 h1] at hf
      simp at hf
    · intro hf
      simp only [cmoves, hw]
      rw [if_pos ⟨(hstat j w).1 hf, hij⟩]
      rfl
  case moveAssign i j =>
    simp only [mstep, Option.bind_eq_bind, Option.bind_eq_some_iff] at h
    obtain ⟨v, hv, w, hw, h⟩ := h
    have hvj : (m.tk c a).vec j = some (vecRep P j (blk j) w) := by show m.vec j = _; rw [hM.vec j, hw]; rfl
    by_cases hij : i = j
    · subst hij
      simp only [cmoves, hw, ne_eq, not_true_eq_false, and_false, if_false]
      refine late_left (late_lift (mexec P E (.moveAssign i i)) _) fun mm => ?_
      simp only [vexec, mexec, moveAssignT, moveAssign, if_true, M.bind_apply, lift]
      cases at' i (pure ()) (m.tk c a) <;> rfl
    · refine late_end (moveAssignT_late E tr P hij hvj rfl ?_ ?_) fun _ _ _ => late_pure _ _
      · intro hf
        simp only [cmoves, hw]
        rw [if_neg]
        rintro ⟨h1, _⟩
        rw [(hstat j w).2 h1] at hf
        simp at hf
      · intro hf
        simp only [cmoves, hw]
        rw [if_pos ⟨(hstat j w).1 hf, hij⟩]
        rfl

/-- A member function of a vector without moves that throw. -/
theorem vcall_quiet_call (hN : 0 < P.N) (hR : P.R ≤ P.N + 1) {i : Nat} {op : Op α} {c a mm : Option Nat} {r : Reply α × Sys α}
    (hM : MRep P L y blk m) (hs : MSafe P.N P.R (.call i op) y) (h : mstep P.N P.R E (.call i op) y = some r)
    (hf : (if allocFails P.N ⟨.call i op, c, a, mm⟩ y then none else mfault mm (cmoves P.N P.R (.call i op) y)) = none) :
    vcall P E tr ⟨.call i op, c, a, mm⟩ m = VOut.ofT (tcall P E ⟨.call i op, c, a⟩ m) := by
  have h0 := tcall_mrep E hN hR (t := ⟨.call i op, c, a⟩) hM hs h
  simp only [mstep, Option.bind_eq_bind, Option.bind_eq_some_iff] at h
  obtain ⟨v, hv, r1, hst, h⟩ := h
  have hvec : (m.tk c a).vec i = some (vecRep P i (blk i) v) := by show m.vec i = _; rw [hM.vec i, hv]; rfl
  have hG := good_tk (split_good hN hR hM hv) c a
  obtain ⟨n, hn, hm⟩ : ∃ n, Count { others P m i (blk i) v with ct := c, at' := a } op v.home v.xs n ∧ Enough mm n := by
    simp only [allocFails, hv] at hf
    split at hf
    · rename_i hb
      simp only [Bool.and_eq_true, beq_iff_eq] at hb
      exact ⟨0, Or.inr ⟨rfl, hb.2, hb.1⟩, by cases mm <;> simp [Enough]⟩
    · refine ⟨_, Or.inl rfl, ?_⟩
      have := mfault_none hf
      simp only [cmoves, hv] at this
      exact this
  have hl : Late (vexec P E tr (.call i op)) (mexec P E (.call i op)) (m.tk c a) n := by
    refine late_at fun w hw => ?_
    rw [hvec] at hw
    cases hw
    rw [view_tk, view_st hM hv, tk_st]
    exact vop_late (C := { others P m i (blk i) v with ct := c, at' := a }) E tr hG.wf hn
  have hsome : ∃ x, tcall P E ⟨.call i op, c, a⟩ m = some x := by
    simp only at h0
    revert h0
    cases mtstep P.N P.R E ⟨.call i op, c, a⟩ y with
    | some x => rintro ⟨m', _, e, _⟩; exact ⟨_, e⟩
    | none => rintro ⟨e, m', e1, _⟩; exact ⟨_, e1⟩
  obtain ⟨x, hx⟩ := hsome
  rw [tcall_eq] at hx ⊢
  simp only at hx ⊢
  cases e : mexec P E (.call i op) (m.tk c a) with
  | ok b m1 =>
    have := hl.ok hm e
    simp only [vcall]
    rw [show ({ m with ctick := c, atick := a } : Mem α) = m.tk c a from rfl, this]
    rfl
  | throw x m1 =>
    obtain ⟨m2, this⟩ := hl.throw hm e
    simp only [vcall]
    rw [show ({ m with ctick := c, atick := a } : Mem α) = m.tk c a from rfl, this]
    rfl
  | ub => rw [e] at hx; simp [quiet] at hx

/-- A call without moves that throw. -/
theorem vcall_quiet (hN : 0 < P.N) (hR : P.R ≤ P.N + 1) {t : VOp α} {r : Reply α × Sys α}
    (hM : MRep P L y blk m) (hs : MSafe P.N P.R t.op y) (h : mstep P.N P.R E t.op y = some r)
    (hf : (if allocFails P.N t y then none else mfault t.m (cmoves P.N P.R t.op y)) = none) :
    vcall P E tr t m = VOut.ofT (tcall P E ⟨t.op, t.c, t.a⟩ m) := by
  have h0 := tcall_mrep E hN hR (t := ⟨t.op, t.c, t.a⟩) hM hs h
  have hlift : ∀ op, sealed t.op = false → vexec P E tr t.op = lift (mexec P E op) → op = t.op →
      vcall P E tr t m = VOut.ofT (tcall P E ⟨t.op, t.c, t.a⟩ m) := by
    rintro op h1 h2 rfl
    rw [tcall_eq]
    simp only [vcall, h2, lift, h1, Mem.tk]
    cases mexec P E t.op { m with ctick := t.c, atick := t.a } <;> rfl
  have hseal : sealed t.op = true → (mtstep P.N P.R E ⟨t.op, t.c, t.a⟩ y = some r) → allocFails P.N t y = false →
      vcall P E tr t m = VOut.ofT (tcall P E ⟨t.op, t.c, t.a⟩ m) := by
    intro h1 h2 h3
    rw [h3] at hf
    have hl := late_sealed E tr hM h h1 t.c t.a
    rw [h2] at h0
    obtain ⟨m', blk', e1, _⟩ := h0
    rw [tcall_eq] at e1 ⊢
    simp only at e1 ⊢
    rw [mstep_sealed E h h1] at e1
    cases e : mexec P E t.op (m.tk t.c t.a) with
    | ok b m1 =>
      have := hl.ok (mfault_none hf) e
      simp only [vcall]
      rw [show ({ m with ctick := t.c, atick := t.a } : Mem α) = m.tk t.c t.a from rfl, this]
      rfl
    | throw x m1 => rw [e] at e1; simp [quiet] at e1
    | ub => rw [e] at e1; simp [quiet] at e1
  obtain ⟨op, c, a, mm⟩ := t
  cases op with
  | call i op => exact vcall_quiet_call E tr hN hR hM hs h hf
  | moveCtor i j => exact hseal rfl (by simp only at h; simp [mtstep, h]) rfl
  | moveAssign i j => exact hseal rfl (by simp only at h; simp [mtstep, h]) rfl
  | ctor => exact hlift _ rfl rfl rfl
  | ctorCount => exact hlift _ rfl rfl rfl
  | ctorVal => exact hlift _ rfl rfl rfl
  | ctorRange => exact hlift _ rfl rfl rfl
  | copyCtor => exact hlift _ rfl rfl rfl
  | copyAssign => exact hlift _ rfl rfl rfl
  | dtor => exact hlift _ rfl rfl rfl

/-- what becomes of a vector and of the blocks when a move throws -/
theorem tears_mrep (hM : MRep P L y blk m) {i : Nat} {v : V α} (hv : y i = some v) {c a : Option Nat}
    {C1 : Ctx α} {h1 : Home} {k1 nx1 : Nat} {xs1 : List α} {ls : List (Nat × List α)}
    (hG : Good C1 h1 k1 xs1 nx1 m.graves)
    (hE : Ext { others P m i (blk i) v with ct := c, at' := a } m.next ls C1 nx1) :
    ∃ blk' L', MRep P L' (y.put i (some ⟨v.al, h1, xs1⟩)) blk' (m.upd i (st C1 h1 k1 xs1 nx1 m.graves)).er ∧
      ∀ ls0, Lost L ls0 → Lost L' (ls0 ++ ls.map fun l => ⟨v.al, l.1, l.2⟩) := by
  obtain ⟨hn, a', ⟨rfl, rfl⟩ | ⟨q, B, rfl, rfl, hq, hx, hal⟩⟩ := hE
  · refine ⟨_, L, rejoin hM hv (h := h1) (k := k1) (nx := nx1) (g := m.graves) (xs := xs1) ⟨hG.N, hG.R, ⟨hG.wf.free, hG.wf.own⟩, hG.raw, hG.len⟩, ?_⟩
    intro ls0 h
    simpa using h
  · have hrest := split_rest hM hv
    have hL := leak_mrep hrest hq hx hn B
    have := join (C := ⟨P, i, v.al, Function.update (others P m i (blk i) v).h0 q (some B), none, none⟩) (i := i) hL
      (by simp [Sys.put]) rfl rfl rfl ⟨rfl, rfl⟩ (h := h1) (k := k1) (xs := xs1) (nx := nx1) (g := m.graves)
      ⟨hG.N, hG.R, ⟨hG.wf.free, hG.wf.own⟩, hG.raw, hG.len⟩
    rw [put_put] at this
    simp only [Function.update_idem] at this
    refine ⟨_, _, this, ?_⟩
    intro ls0 h
    have := h.more (lost_none hrest hq) B
    rw [hal] at this
    exact this

/-- One call with throw points. -/
theorem vcall_mrep (hN : 0 < P.N) (hR : P.R ≤ P.N + 1) {t : VOp α} {r : Reply α × Sys α}
    (hM : MRep P L y blk m) (hs : MSafe P.N P.R t.op y) (h : mstep P.N P.R E t.op y = some r) :
    match vstep P.N P.R E tr t y with
    | some (r', ls, y') => ∃ m' blk' L', vcall P E tr t m = .ret r' m' ∧ MRep P L' y' blk' m' ∧
        ∀ ls0, Lost L ls0 → Lost L' (ls0 ++ ls)
    | none => match t.op with
      | .call i _ | .copyAssign i _ => ∃ e m', vcall P E tr t m = .ret (.exc e) m' ∧ (destruct i m' = .ub ∨ Spoiled i m')
      | .moveCtor _ _ | .moveAssign _ _ => vcall P E tr t m = .terminated
      | _ => vcall P E tr t m = .ub := by
  cases hf : (if allocFails P.N t y then none else mfault t.m (cmoves P.N P.R t.op y)) with
  | none =>
    have h0 := tcall_mrep E hN hR (t := ⟨t.op, t.c, t.a⟩) hM hs h
    have h1 := vcall_quiet E tr hN hR hM hs h hf
    simp only [vstep, h, Option.bind_eq_bind, Option.bind_some, hf]
    cases e : mtstep P.N P.R E ⟨t.op, t.c, t.a⟩ y with
    | some x =>
      obtain ⟨r', y'⟩ := x
      rw [e] at h0
      obtain ⟨m', blk', e1, e2⟩ := h0
      rw [e1] at h1
      exact ⟨m', blk', L, h1, e2, fun ls0 hl => by simpa using hl⟩
    | none =>
      rw [e] at h0
      simp only [Option.bind_none]
      obtain ⟨op, c, a, mm⟩ := t
      cases op with
      | call i op => obtain ⟨x, m', e1, e2⟩ := h0; exact ⟨x, m', by rw [h1, e1]; rfl, Or.inl e2⟩
      | copyAssign i op => obtain ⟨x, m', e1, e2⟩ := h0; exact ⟨x, m', by rw [h1, e1]; rfl, Or.inl e2⟩
      | moveCtor i j => simp only at h; simp [mtstep, h] at e
      | moveAssign i j => simp only at h; simp [mtstep, h] at e
      | ctor => simp only at h0 ⊢; rw [h1, h0]; rfl
      | ctorCount => simp only at h0 ⊢; rw [h1, h0]; rfl
      | ctorVal => simp only at h0 ⊢; rw [h1, h0]; rfl
      | ctorRange => simp only at h0 ⊢; rw [h1, h0]; rfl
      | copyCtor => simp only at h0 ⊢; rw [h1, h0]; rfl
      | dtor => simp only at h0 ⊢; rw [h1, h0]; rfl
  | some k =>
    have hfa : allocFails P.N t y = false := by
      cases e : allocFails P.N t y with
      | false => rfl
      | true => rw [e] at hf; simp at hf
    rw [hfa] at hf
    simp only [Bool.false_eq_true, if_false] at hf
    obtain ⟨hk, hlt⟩ := mfault_some hf
    simp only [vstep, h, Option.bind_eq_bind, Option.bind_some, hfa, Bool.false_eq_true, if_false, hf]
    obtain ⟨op, c, a, mm⟩ := t
    simp only at hk h hs hlt
    subst hk
    cases op with
    | call i op =>
      simp only [mstep, Option.bind_eq_bind, Option.bind_eq_some_iff] at h
      obtain ⟨v, hv, r1, hst, h⟩ := h
      have hvec : (m.tk c a).vec i = some (vecRep P i (blk i) v) := by show m.vec i = _; rw [hM.vec i, hv]; rfl
      have hG := good_tk (split_good hN hR hM hv) c a
      simp only [cmoves, hv] at hlt
      have hT := vop_tears E tr hG (hs v hv) hlt (by
        intro h1 h2
        simp only at h2
        simp [allocFails, hv, h2] at hfa
        have h3 : allocs P.N op v.home v.xs = true := h1
        rw [h3] at hfa
        simp at hfa)
      have hview : (m.tk c a).view (vecRep P i (blk i) v) =
          st { others P m i (blk i) v with ct := c, at' := a } v.home (blk i) v.xs m.next m.graves := by
        rw [view_tk, view_st hM hv, tk_st]
      have hcall : ∀ s, vop P E tr op ⟨st { others P m i (blk i) v with ct := c, at' := a } v.home (blk i) v.xs m.next m.graves, some k⟩ =
          .throw .element ⟨s, none⟩ → vcall P E tr ⟨.call i op, c, a, some k⟩ m = .ret (.exc .element) (m.upd i s).er := by
        intro s hs
        simp only [vcall, vexec, at'T]
        rw [show ({ m with ctick := c, atick := a } : Mem α) = m.tk c a from rfl]
        rw [show m.vec i = some (vecRep P i (blk i) v) from hvec]
        simp only [hview, hs, sealed]
        rfl
      simp only [hv, Option.bind_some]
      have hT' : Tears { others P m i (blk i) v with ct := c, at' := a } m.next m.graves
        (vop P E tr op ⟨st { others P m i (blk i) v with ct := c, at' := a } v.home (blk i) v.xs m.next m.graves, some k⟩)
        (tornStep P.N P.R E tr k op v.home v.xs) := hT
      cases e : tornStep P.N P.R E tr k op v.home v.xs with
      | some x =>
        obtain ⟨h1, xs1, ls⟩ := x
        rw [e] at hT'
        obtain ⟨C1, k1, nx1, e1, e2, e3⟩ := hT'
        obtain ⟨blk', L', e4, e5⟩ := tears_mrep hM hv e2 e3
        exact ⟨_, blk', L', hcall _ e1, e4, e5⟩
      | none =>
        rw [e] at hT'
        obtain ⟨s, e1, e2⟩ := hT'
        refine ⟨_, _, hcall _ e1, ?_⟩
        rcases e2 with e2 | e2
        · exact Or.inl (destruct_dead' e2)
        · right
          have : (m.upd i s).er = m.upd i s.er := rfl
          rw [this]
          exact stained_spoiled (s := s.er) e2
    | moveCtor i j =>
      simp only [mstep, Option.bind_eq_bind, Option.bind_eq_some_iff] at h
      obtain ⟨w, hw, h⟩ := h
      split at h
      · simp at h
      rename_i hi
      simp only [cmoves, hw] at hlt
      split at hlt
      swap
      · omega
      rename_i hst
      obtain ⟨s, hs⟩ := moveCtorT_fault E tr hM (by simpa using hi) hw hst.1 hlt c a
      simp only [Mem.tk] at hs
      simp only [vcall, vexec, M.bind_apply, hs, sealed, if_true]
    | moveAssign i j =>
      simp only [mstep, Option.bind_eq_bind, Option.bind_eq_some_iff] at h
      obtain ⟨v, hv, w, hw, h⟩ := h
      simp only [cmoves, hw] at hlt
      split at hlt
      swap
      · omega
      rename_i hst
      obtain ⟨s, hs⟩ := moveAssignT_fault E tr hN hR hM hst.2 hv hw hst.1 hlt c a
      simp only [Mem.tk] at hs
      simp only [vcall, vexec, M.bind_apply, hs, sealed, if_true]
    | ctor => simp [cmoves] at hlt
    | ctorCount => simp [cmoves] at hlt
    | ctorVal => simp [cmoves] at hlt
    | ctorRange => simp [cmoves] at hlt
    | copyCtor => simp [cmoves] at hlt
    | copyAssign => simp [cmoves] at hlt
    | dtor => simp [cmoves] at hlt

/-- A history. -/
theorem vrun_mrep (hN : 0 < P.N) (hR : P.R ≤ P.N + 1) : ∀ (ts : List (VOp α)) {y y' : Sys α} {L : Nat → Option (Block α)}
    {blk : Nat → Nat} {m : Mem α} {rs : List (Reply α)} {ls : List (Leak α)}, MRep P L y blk m → VSafeRun P.N P.R E tr ts y →
    Spec.vrun P.N P.R E tr ts y = some (rs, ls, y') →
    ∃ m' blk' L', vrun P E tr ts m = some (rs, m') ∧ MRep P L' y' blk' m' ∧ ∀ ls0, Lost L ls0 → Lost L' (ls0 ++ ls) := by
  intro ts
  induction ts with
  | nil =>
    intro y y' L blk m rs ls hM _ h
    simp only [Spec.vrun, Option.some.injEq, Prod.mk.injEq] at h
    obtain ⟨rfl, rfl, rfl⟩ := h
    exact ⟨m, blk, L, rfl, hM, fun ls0 h => by simpa using h⟩
  | cons t ts ih =>
    intro y y' L blk m rs ls hM hs h
    simp only [Spec.vrun, Option.bind_eq_bind, Option.bind_eq_some_iff] at h
    obtain ⟨⟨r, l1, y1⟩, h1, ⟨rs1, l2, y2⟩, h2, h3⟩ := h
    simp only [Option.some.injEq, Prod.mk.injEq] at h3
    obtain ⟨rfl, rfl, rfl⟩ := h3
    obtain ⟨hs1, hs2⟩ := hs
    rw [h1] at hs2
    obtain ⟨r0, hr0⟩ : ∃ r0, mstep P.N P.R E t.op y = some r0 := by
      cases e : mstep P.N P.R E t.op y with
      | none => simp [vstep, e] at h1
      | some r0 => exact ⟨r0, rfl⟩
    have e1 := vcall_mrep E tr hN hR hM hs1 hr0
    rw [h1] at e1
    obtain ⟨m1, blk1, L1, e1, e2, e5⟩ := e1
    obtain ⟨m2, blk2, L2, e3, e4, e6⟩ := ih e2 hs2 h2
    exact ⟨m2, blk2, L2, by simp [vrun, e1, e3], e4, fun ls0 h => by
      rw [← List.append_assoc]
      exact e6 _ (e5 _ h)⟩

end Itlib.SmallVector
