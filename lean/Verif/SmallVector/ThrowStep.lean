import Verif.SmallVector.StopLemmas
import Verif.SmallVector.ThrowExec

/-! # Systems of vectors with throw points (proof engineering) -/
namespace Itlib.SmallVector
open Itlib Spec
variable {α β γ : Type}

/-- the memory with other throw points -/
def Mem.tk (m : Mem α) (c a : Option Nat) : Mem α := { m with ctick := c, atick := a }
/-- the memory without throw points -/
abbrev Mem.er (m : Mem α) : Mem α := m.tk none none

/-- `f`, run in `m`, makes `nc` copies and `na` allocations if it returns -/
structure OkF (f : M (Mem α) β) (m : Mem α) (nc na : Nat) : Prop where
  run : ∀ c a, Enough c nc → Enough a na → ∀ b m', f m.er = .ok b m' →
    f (m.tk c a) = .ok b (m'.tk (spend c nc) (spend a na)) ∧ m'.er = m'

theorem OkF.pure (b : β) (m : Mem α) : OkF (pure b) m 0 0 := by
  refine ⟨fun c a _ _ b' m' h => ?_⟩
  simp only [M.pure_apply, Res.ok.injEq] at h
  obtain ⟨rfl, rfl⟩ := h
  exact ⟨by simp only [M.pure_apply, spend_zero]; rfl, rfl⟩

theorem OkF.bind {f : M (Mem α) β} {g : β → M (Mem α) γ} {m : Mem α} {nc na nc' na' : Nat} (hf : OkF f m nc na)
    (hg : ∀ b t, f m.er = .ok b t → t.er = t → OkF (g b) t nc' na') : OkF (f >>= g) m (nc + nc') (na + na') := by
  refine ⟨fun c a hc ha b' m' h => ?_⟩
  have hc := enough_add hc
  have ha := enough_add ha
  simp only [M.bind_apply] at h ⊢
  cases e : f m.er with
  | ok b t =>
    rw [e] at h
    obtain ⟨h1, h2⟩ := hf.run c a hc.1 ha.1 b t e
    rw [h1]
    have := (hg b t e h2).run _ _ hc.2 ha.2 b' m' (by rw [h2]; exact h)
    rw [spend_add, spend_add] at this
    exact this
  | throw ex t => rw [e] at h; simp at h
  | ub => rw [e] at h; simp at h

theorem OkF.bind0 {f : M (Mem α) β} {g : β → M (Mem α) γ} {m : Mem α} {nc na : Nat} (hf : OkF f m 0 0)
    (hg : ∀ b t, f m.er = .ok b t → t.er = t → OkF (g b) t nc na) : OkF (f >>= g) m nc na := by
  simpa using OkF.bind hf hg

theorem OkF.get {g : Mem α → M (Mem α) γ} {m : Mem α} {nc na : Nat} (hc : ∀ c a, g (m.tk c a) = g m.er)
    (hg : OkF (g m.er) m nc na) : OkF (M.get >>= g) m nc na := by
  refine ⟨fun c a h1 h2 b m' h => ?_⟩
  simp only [M.bind_apply, M.get_apply, hc c a] at h ⊢
  exact hg.run c a h1 h2 b m' h

theorem OkF.undef (m : Mem α) : OkF (M.undef : M (Mem α) β) m 0 0 :=
  ⟨fun c a _ _ b m' h => by simp [M.undef_apply] at h⟩

theorem OkF.ite {p : Prop} [Decidable p] {f g : M (Mem α) β} {m : Mem α} {nc na : Nat} (hf : p → OkF f m nc na)
    (hg : ¬ p → OkF g m nc na) : OkF (if p then f else g) m nc na := by
  split
  · exact hf ‹_›
  · exact hg ‹_›

theorem OkF.mem {f : Mem α → Option (Mem α)} {m : Mem α} (h : ∀ c a, f (m.tk c a) = (f m.er).map (·.tk c a)) :
    OkF (M.mem f) m 0 0 := by
  refine ⟨fun c a _ _ b m' h1 => ?_⟩
  simp only [M.mem, h c a, spend_zero] at h1 ⊢
  cases e : f m.er with
  | none => rw [e] at h1; simp at h1
  | some t =>
    rw [e] at h1
    simp only [Res.ok.injEq, true_and] at h1
    subst h1
    refine ⟨rfl, ?_⟩
    have h1 := h none none
    rw [show m.tk none none = m.er from rfl, e] at h1
    simpa using h1.symm

theorem view_tk (m : Mem α) (v : Vec α) (c a : Option Nat) : (m.tk c a).view v = (m.view v).tk c a := rfl

theorem at'_okf {f : M (St α) β} {m : Mem α} {i nc na : Nat} (hf : ∀ v, m.vec i = some v → Frame f (m.view v) nc na) :
    OkF (at' i f) m nc na := by
  refine ⟨fun c a hc ha b m' h => ?_⟩
  have e1 : (m.tk c a).vec i = m.vec i := rfl
  have e2 : m.er.vec i = m.vec i := rfl
  simp only [at', e1, e2] at h ⊢
  cases hv : m.vec i with
  | none => rw [hv] at h; simp at h
  | some v =>
    rw [hv] at h
    have hF := (hf v hv).run c a hc ha
    simp only [view_tk] at h ⊢
    cases e : f ((m.view v).tk none none) with
    | ok b t =>
      rw [e] at h
      simp only [Res.ok.injEq] at h
      obtain ⟨rfl, rfl⟩ := h
      rw [show (m.view v).er = (m.view v).tk none none from rfl, e] at hF
      rw [hF.1]
      refine ⟨rfl, ?_⟩
      rw [← hF.2]
      rfl
    | throw ex t => rw [e] at h; simp at h
    | ub => rw [e] at h; simp at h

theorem construct_okf (P : Params) (i al : Nat) (m : Mem α) : OkF (construct P i al) m 0 0 := by
  refine OkF.mem fun c a => ?_
  have e1 : (m.tk c a).vec i = m.vec i := rfl
  have e2 : m.er.vec i = m.vec i := rfl
  simp only [e1, e2]
  cases m.vec i <;> rfl

theorem takeImpl_okf (P : Params) (E : Elem α) (i j : Nat) (m : Mem α) : OkF (takeImpl P E i j) m 0 0 := by
  refine OkF.mem fun c a => ?_
  have e1 : (m.tk c a).vec = m.vec := rfl
  have e2 : m.er.vec = m.vec := rfl
  by_cases hij : i = j
  · simp [hij]
  · simp only [hij, if_false, e1, e2, Option.bind_eq_bind]
    cases m.vec i with
    | none => rfl
    | some vi =>
      cases m.vec j with
      | none => rfl
      | some vj =>
        simp only [Option.bind_some]
        by_cases h1 : vj.isStatic = true
        · simp only [h1, if_true]
          by_cases h2 : vj.endp = vj.bgn
          · simp only [h2, if_true]
            cases moveLoop E.mv 0 0 vj.endo vj.stat vi.stat with
            | none => rfl
            | some bb =>
              simp only [Option.bind_some]
              cases bb.1.destroyRange 0 vj.endo <;> rfl
          · simp only [h2, if_false, Option.map_none]
        · simp only [h1]
          rfl

theorem dtorBody_frame (s : St α) : Frame dtorBody s 0 0 :=
  Frame.bind0 (destroyAll_frame s) fun _ t _ _ => freeDyn_frame t

theorem destruct_okf (i : Nat) (m : Mem α) : OkF (destruct i) m 0 0 := by
  refine OkF.bind0 (at'_okf fun v _ => dtorBody_frame _) fun _ t _ _ => OkF.mem fun c a => ?_
  have e1 : (t.tk c a).vec = t.vec := rfl
  have e2 : t.er.vec = t.vec := rfl
  simp only [e1, e2, Option.bind_eq_bind]
  cases t.vec i <;> rfl

theorem moveCtor_okf (P : Params) (E : Elem α) (i j : Nat) (m : Mem α) : OkF (moveCtor P E i j) m 0 0 := by
  refine OkF.get (fun _ _ => rfl) ?_
  split
  · exact OkF.undef _
  · exact OkF.bind0 (construct_okf ..) fun _ t _ _ => OkF.bind0
      (at'_okf fun v _ => Frame.modify fun _ _ => rfl) fun _ t _ _ => takeImpl_okf ..

theorem moveAssign_okf (P : Params) (E : Elem α) (i j : Nat) (m : Mem α) : OkF (moveAssign P E i j) m 0 0 := by
  refine OkF.ite (fun _ => at'_okf fun v _ => Frame.pure ..) fun _ => OkF.get (fun _ _ => rfl) ?_
  split
  · exact OkF.undef _
  · refine OkF.bind0 (at'_okf fun v _ => Frame.bind0 (destroyAll_frame _) fun _ t _ _ => Frame.bind0 (freeDyn_frame _)
      fun _ t _ _ => Frame.modify fun _ _ => rfl) fun _ t _ _ => takeImpl_okf ..

theorem OkF.done {f : M (Mem α) Unit} {m : Mem α} (hf : OkF f m 0 0) :
    OkF (do f; Pure.pure (Reply.done : Reply α)) m 0 0 :=
  OkF.bind0 hf fun _ t _ _ => OkF.pure ..

variable {P : Params} {L : Nat → Option (Block α)} {y : Sys α} {blk : Nat → Nat} {m : Mem α}

theorem er_mrep (hM : MRep P L y blk m) : m.er = m := by
  have h1 := hM.ct
  have h2 := hM.at'
  cases m
  simp only at h1 h2
  subst h1 h2
  rfl

/-- what the caller sees -/
def quiet : Res (Mem α) (Reply α) → Option (Reply α × Mem α)
  | .ok r m' => some (r, m'.er)
  | .throw e m' => some (.exc e, m'.er)
  | .ub => none

theorem tcall_eq (E : Elem α) (t : TOp α) : tcall P E t m = quiet (mexec P E t.op (m.tk t.c t.a)) := by
  simp only [tcall, Mem.tk]
  cases mexec P E t.op { m with ctick := t.c, atick := t.a } <;> rfl

/-- a call that returns and has no throw points -/
theorem tcall_quiet (E : Elem α) {t : TOp α} {y' : Sys α} {r : Reply α} (hN : 0 < P.N) (hR : P.R ≤ P.N + 1)
    (hM : MRep P L y blk m) (hs : MSafe P.N P.R t.op y) (h : mstep P.N P.R E t.op y = some (r, y'))
    (hr : ∀ e, r ≠ .exc e) (hf : OkF (mexec P E t.op) m 0 0) :
    ∃ m' blk', tcall P E t m = some (r, m') ∧ MRep P L y' blk' m' := by
  obtain ⟨m', blk', e1, e2⟩ := mcall_mrep E hN hR hM hs h
  refine ⟨m', blk', ?_, e2⟩
  simp only [mcall] at e1
  cases e : mexec P E t.op m with
  | ok r' m1 =>
    rw [e] at e1
    simp only [Option.some.injEq, Prod.mk.injEq] at e1
    obtain ⟨rfl, rfl⟩ := e1
    have h1 := (hf.run t.c t.a (enough_zero _) (enough_zero _) r' m1 (by rw [er_mrep hM]; exact e))
    rw [tcall_eq, h1.1]
    simp only [quiet]
    rw [show (m1.tk (spend t.c 0) (spend t.a 0)).er = m1.er from rfl, h1.2]
  | throw x m1 =>
    rw [e] at e1
    simp only [Option.some.injEq, Prod.mk.injEq] at e1
    exact absurd e1.1.symm (hr x)
  | ub => rw [e] at e1; simp at e1

theorem dead_any {s : St α} (h : Dead s) : dtorBody s = .ub := by
  have := (dtorBody_frame s).run s.ctick s.atick (enough_zero _) (enough_zero _)
  rw [show dtorBody s.er = .ub from h] at this
  exact this

theorem destruct_dead {i : Nat} {s : St α} (h : Dead s) : destruct i (m.upd i s) = .ub := by
  have e1 : (m.upd i s).vec i = some s.v := by simp [Mem.upd]
  have e2 : (m.upd i s).view s.v = s := rfl
  simp only [destruct, M.bind_apply, at', e1, e2, dead_any h]

theorem destruct_dead' {i : Nat} {s : St α} (h : Dead s) : destruct i (m.upd i s).er = .ub := by
  have : (m.upd i s).er = m.upd i s.er := rfl
  rw [this]
  exact destruct_dead (s := s.er) h

/-- a member function of vector `i` with throw points -/
theorem tcall_at (E : Elem α) (hN : 0 < P.N) (hR : P.R ≤ P.N + 1) (hM : MRep P L y blk m) {i : Nat} {v : V α} (hv : y i = some v)
    {op : Op α} {r : Reply α × Home × List α} (hs : Safe P.N P.R op v.home v.xs)
    (hstep : step P.N P.R E op v.home v.xs = some r) (c a : Option Nat) :
    match tstep P.N P.R E c a op v.home v.xs with
    | some (r', h', xs') => ∃ m' blk', quiet (at' i (exec P E op) (m.tk c a)) = some (r', m') ∧
        MRep P L (y.put i (some ⟨v.al, h', xs'⟩)) blk' m'
    | none => ∃ e m', quiet (at' i (exec P E op) (m.tk c a)) = some (.exc e, m') ∧ destruct i m' = .ub := by
  have hG := split_good hN hR hM hv
  have hT : NoThrow (others P m i (blk i) v) := ⟨rfl, rfl⟩
  have h1 := tcall_st E hG hT hs hstep c a
  have e1 : (m.tk c a).vec i = some (vecRep P i (blk i) v) := by
    show m.vec i = _
    rw [hM.vec i, hv]; rfl
  have e2 : ∀ x s', call P E op ((st (others P m i (blk i) v) v.home (blk i) v.xs m.next m.graves).tk c a) = some (x, s') →
      quiet (at' i (exec P E op) (m.tk c a)) = some (x, m.upd i s'.er) := by
    intro x s' hc
    simp only [at', e1, view_tk, view_st hM hv]
    simp only [call] at hc
    revert hc
    cases exec P E op ((st (others P m i (blk i) v) v.home (blk i) v.xs m.next m.graves).tk c a) with
    | ok b s1 =>
      intro hc
      simp only [Option.some.injEq, Prod.mk.injEq] at hc
      obtain ⟨rfl, rfl⟩ := hc
      rfl
    | throw e s1 =>
      intro hc
      simp only [Option.some.injEq, Prod.mk.injEq] at hc
      obtain ⟨rfl, rfl⟩ := hc
      rfl
    | ub => intro hc; simp at hc
  have e0 : (others P m i (blk i) v).P = P := rfl
  rw [e0] at h1
  revert h1
  cases tstep P.N P.R E c a op v.home v.xs with
  | some x =>
    obtain ⟨r', h', xs'⟩ := x
    rintro ⟨k', nx', g', c', a', h1, h2⟩
    have := rejoin hM hv h2
    refine ⟨_, Function.update blk i k', e2 _ _ h1, ?_⟩
    rw [show ((st (others P m i (blk i) v) h' k' xs' nx' g').tk c' a').er =
      (st (others P m i (blk i) v) h' k' xs' nx' g').er from rfl, er_st hT]
    exact this
  | none =>
    rintro ⟨e, s', h1, h2⟩
    exact ⟨e, _, e2 _ _ h1, destruct_dead (s := s'.er) h2⟩

/-! ### Constructors -/

theorem ctorRest_okf {i nc na : Nat} {f : M (St α) Unit} (hf : ∀ v, m.vec i = some v → Frame f (m.view v) nc na) :
    OkF (ctorRest i f) m nc na := by
  refine ⟨fun c a hc ha b m' h => ?_⟩
  have h1 := (at'_okf hf).run c a hc ha
  simp only [ctorRest] at h ⊢
  cases e : at' i f m.er with
  | ok b' m1 =>
    rw [e] at h
    simp only [Res.ok.injEq, true_and] at h
    subst h
    obtain ⟨h2, h3⟩ := h1 _ _ e
    rw [h2]
    exact ⟨rfl, h3⟩
  | throw x m1 =>
    rw [e] at h
    simp only at h
    split at h <;> simp at h
  | ub => rw [e] at h; simp at h

/-- `f` fills a new vector with the `n` elements `xs`; `b`: in the static buffer, it keeps `end()` up to date. -/
structure Fills (C : Ctx α) (k nx : Nat) (g : List (Buf α)) (f : M (St α) Unit) (n : Nat) (h : Home) (xs : List α) (b : Bool) :
    Prop where
  F : Frame f (st C .stat k [] nx g) n (if C.P.N < n then 1 else 0)
  O : ∃ k' nx' g', f (st C .stat k [] nx g) = .ok () (st C h k' xs nx' g') ∧ Good C h k' xs nx' g'
  B : ∀ c, C.P.N < n → f ((st C .stat k [] nx g).tk c (some 0)) = .throw .badAlloc ((st C .stat k [] nx g).tk c (some 0))
  S : ∀ j, j < n → ∃ t, Stops f (st C .stat k [] nx g) j (if C.P.N < n then 1 else 0) t ∧
    (if n ≤ C.P.N ∧ b = true then ∃ zs, t = st C .stat k zs nx g ∧ zs.length ≤ C.P.N else Dead t)

section
variable {C : Ctx α} {k nx n : Nat} {g : List (Buf α)}

theorem st_nil : st C .stat k [] nx g = stB C .stat k (Buf.fresh (Home.stat.cap C.P.N)) 0 nx g := by
  simp only [st, Buf.ofList_nil]; rfl

theorem resizeV_fills (E : Elem α) (a : α) (hG : Good C .stat k [] nx g) (hT : NoThrow C) :
    Fills C k nx g (resizeV C.P E n (.val a)) n (choose C.P.N C.P.R n .stat) (List.replicate n a) false where
  F := by
    have := resizeV_frame E (d := n) (v := .val a) hG hT
    rw [List.length_nil, Nat.sub_zero] at this
    exact this
  O := by
    have := resizeV_st E (d := n) (v := .val a) (a := a) hG hT rfl (Or.inr ⟨_, rfl⟩)
    simpa [reserved_stat] using this
  B c hn := by
    rw [tk_st]
    exact by simp only [resizeV, M.bind_apply, bindRef_st,
      reserve_fail (C := { C with ct := c, at' := some 0 }) (h := .stat) E rfl hn]
  S j hj := by
    obtain ⟨t, h1, h2⟩ := resizeV_stops E (d := n) (j := j) (v := .val a) (a := a) hG hT rfl (Or.inr ⟨_, rfl⟩) (by simpa using hj)
    exact ⟨t, h1, by simpa using h2⟩

theorem assignFill_fills (a : α) (hG : Good C .stat k [] nx g) (hT : NoThrow C) :
    Fills C k nx g (assignFill C.P n (.val a)) n (choose C.P.N C.P.R n .stat) (List.replicate n a) true where
  F := by rw [st_nil]; exact assignFill_frame
  O := by rw [st_nil]; exact assignFill_stB hG hT (Or.inr fun s => by simp [loadRef])
  B c hn := by
    rw [tk_st, st]
    simp only [assignFill, M.bind_apply, chooseData_fail (C := { C with ct := c, at' := some 0 }) (h := .stat) rfl hn]
  S j hj := by
    obtain ⟨t, h1, h2⟩ := assignFill_stops (n := 0) (d := n) (j := j) (r := .val a) (a := a) hG hT (fun _ => rfl) hj
    rw [st_nil]
    refine ⟨t, h1, ?_⟩
    by_cases hn : n ≤ C.P.N
    · rw [if_neg (by simp only [moves]; omega)] at h2
      rw [if_pos ⟨hn, rfl⟩]
      exact ⟨_, h2, by simp; omega⟩
    · rw [if_pos (by simp only [moves]; omega)] at h2
      rw [if_neg (by tauto)]
      exact h2

theorem assignCopy_fills (ys : List α) (hG : Good C .stat k [] nx g) (hT : NoThrow C) :
    Fills C k nx g (assignCopy C.P ys) ys.length (choose C.P.N C.P.R ys.length .stat) ys true where
  F := by rw [st_nil]; exact assignCopy_frame
  O := by rw [st_nil]; exact assignCopy_stB hG hT
  B c hn := by
    rw [tk_st, st]
    simp only [assignCopy, M.bind_apply, chooseData_fail (C := { C with ct := c, at' := some 0 }) (h := .stat) rfl hn]
  S j hj := by
    obtain ⟨t, h1, h2⟩ := assignCopy_stops (n := 0) (j := j) (ys := ys) hG hT hj
    rw [st_nil]
    refine ⟨t, h1, ?_⟩
    by_cases hn : ys.length ≤ C.P.N
    · rw [if_neg (by simp only [moves]; omega)] at h2
      rw [if_pos ⟨hn, rfl⟩]
      exact ⟨_, h2, by simp; omega⟩
    · rw [if_pos (by simp only [moves]; omega)] at h2
      rw [if_neg (by tauto)]
      exact h2
end

/-- The rest of a constructor with throw points, `f` being what fills the new vector with `n` elements. -/
theorem ctorRest_out (hN : 0 < P.N) (hR : P.R ≤ P.N + 1) {i al n : Nat} {f : M (St α) Unit} {xs : List α} {h : Home} {b : Bool}
    (hM : MRep P L (y.put i (some ⟨al, .stat, []⟩)) blk m) (hy : y i = none)
    (hf : Fills (others P m i (blk i) ⟨al, .stat, []⟩) (blk i) m.next m.graves f n h xs b) (c a : Option Nat) :
    match fault c a (decide (P.N < n)) n with
    | none => ∃ m' blk' c' a', ctorRest i f (m.tk c a) = .ok () (m'.tk c' a') ∧ MRep P L (y.put i (some ⟨al, h, xs⟩)) blk' m'
    | some .badAlloc => ∃ m' blk' c' a', ctorRest i f (m.tk c a) = .throw .badAlloc (m'.tk c' a') ∧ MRep P L y blk' m'
    | some e => if n ≤ P.N ∧ b = true then
        ∃ m' blk' c' a', ctorRest i f (m.tk c a) = .throw e (m'.tk c' a') ∧ MRep P L y blk' m'
      else ctorRest i f (m.tk c a) = .ub := by
  obtain ⟨hF, hO, hB, hS⟩ := hf
  have hv : (y.put i (some ⟨al, .stat, []⟩)) i = some ⟨al, .stat, []⟩ := by simp [Sys.put]
  have hG := split_good hN hR hM hv
  have hT : NoThrow (others P m i (blk i) ⟨al, .stat, []⟩) := ⟨rfl, rfl⟩
  have hview := view_st hM hv
  have hvec : m.vec i = some (vecRep P i (blk i) ⟨al, .stat, []⟩) := by rw [hM.vec i, hv]; rfl
  -- leaving by an exception that leaves a good vector
  have hgood : ∀ {c a : Option Nat} {e : Exc} {zs : List α} {c' a' : Option Nat}, zs.length ≤ P.N →
      f ((st (others P m i (blk i) ⟨al, .stat, []⟩) .stat (blk i) [] m.next m.graves).tk c a) =
        .throw e ((st (others P m i (blk i) ⟨al, .stat, []⟩) .stat (blk i) zs m.next m.graves).tk c' a') →
      ∃ m' blk' c' a', ctorRest i f (m.tk c a) = .throw e (m'.tk c' a') ∧ MRep P L y blk' m' := by
    intro c a e zs c' a' hl hf
    have hG' : Good (others P m i (blk i) ⟨al, .stat, []⟩) .stat (blk i) zs m.next m.graves :=
      ⟨hG.N, hG.R, hG.wf, hG.raw, hl⟩
    have hM' := rejoin hM hv hG'
    rw [put_put] at hM'
    obtain ⟨m2, e1, e2⟩ := destruct_mrep hN hR hM' (i := i) (v := ⟨al, .stat, zs⟩) (by simp [Sys.put])
    rw [put_put, put_same hy] at e2
    have e3 := (destruct_okf i _).run c' a' (enough_zero _) (enough_zero _) () m2 (by rw [er_mrep hM']; exact e1)
    refine ⟨m2, _, spend c' 0, spend a' 0, ?_, e2⟩
    have e4 : at' i f (m.tk c a) = .throw e ((m.upd i
        (st (others P m i (blk i) ⟨al, .stat, []⟩) .stat (blk i) zs m.next m.graves)).tk c' a') := by
      simp only [at', show (m.tk c a).vec i = _ from hvec, view_tk, hview, hf]
      rfl
    simp only [ctorRest, e4, e3.1]
  by_cases hb : decide (P.N < n) = true ∧ a = some 0
  · rw [fault_bad hb]
    obtain ⟨hb, rfl⟩ := hb
    exact hgood (by simp) (hB c (show P.N < n by simpa using hb))
  · have ha := fault_enough hb
    simp only [decide_eq_true_eq] at ha
    by_cases hc : ∃ j, c = some j ∧ j < n
    · obtain ⟨j, rfl, hj⟩ := hc
      rw [fault_elem hb hj]
      simp only
      obtain ⟨t, h1, h2⟩ := hS j hj
      obtain ⟨a', h1⟩ := h1.run a ha
      change if n ≤ P.N ∧ b = true then _ else _ at h2
      by_cases hi : n ≤ P.N ∧ b = true
      · rw [if_pos hi] at h2 ⊢
        obtain ⟨zs, rfl, hz⟩ := h2
        exact hgood hz h1
      · rw [if_neg hi] at h2 ⊢
        have e4 : at' i f (m.tk (some j) a) = .throw .element (m.upd i (t.tk (some 0) a')) := by
          simp only [at', show (m.tk (some j) a).vec i = _ from hvec, view_tk, hview, h1]
          rfl
        simp only [ctorRest, e4]
        rw [destruct_dead (s := t.tk (some 0) a') h2]
    · have hc' : Enough c n := by
        cases c with
        | none => trivial
        | some j => simp only [Enough]; by_contra hj; exact hc ⟨j, rfl, by omega⟩
      rw [fault_none hb hc']
      obtain ⟨m', blk', e1, e2⟩ := ctorRest_mrep hM hO
      have e3 := (ctorRest_okf (m := m) (i := i) (f := f) (fun v hv' => by
        rw [hvec] at hv'
        cases hv'
        rw [hview]
        exact hF)).run c a hc' ha () m' (by rw [er_mrep hM]; exact e1)
      exact ⟨m', blk', _, _, e3.1, e2⟩

theorem fault_cases (c a : Option Nat) (al : Bool) (n : Nat) :
    fault c a al n = none ∨ fault c a al n = some .badAlloc ∨ fault c a al n = some .element := by
  simp only [fault]
  split
  · simp
  · split
    · split <;> simp
    · simp

/-- a constructor with throw points -/
theorem tcreate (E : Elem α) (hN : 0 < P.N) (hR : P.R ≤ P.N + 1) {t : TOp α} {i al n : Nat} {f : M (St α) Unit} {xs : List α}
    {h : Home} {b : Bool} (hM : MRep P L y blk m) (hy : y i = none)
    (hop : mexec P E t.op (m.tk t.c t.a) = (construct P i al >>= fun _ => ctorRest i f >>= fun _ => pure Reply.done) (m.tk t.c t.a))
    (hf : ∀ C k nx g, C.P = P → Good C .stat k [] nx g → NoThrow C → Fills C k nx g f n h xs b) :
    match fault t.c t.a (decide (P.N < n)) n with
    | none => ∃ m' blk', tcall P E t m = some (.done, m') ∧ MRep P L (y.put i (some ⟨al, h, xs⟩)) blk' m'
    | some .badAlloc => ∃ m' blk', tcall P E t m = some (.exc .badAlloc, m') ∧ MRep P L y blk' m'
    | some e => if n ≤ P.N ∧ b = true then ∃ m' blk', tcall P E t m = some (.exc e, m') ∧ MRep P L y blk' m'
      else tcall P E t m = none := by
  obtain ⟨m1, e1, e2⟩ := construct_mrep (al := al) hN hR hM hy
  have e3 := (construct_okf P i al m).run t.c t.a (enough_zero _) (enough_zero _) () m1 (by rw [er_mrep hM]; exact e1)
  have e4 := ctorRest_out hN hR e2 hy (hf _ _ _ _ rfl (split_good hN hR e2 (by simp [Sys.put])) ⟨rfl, rfl⟩) t.c t.a
  have e5 : mexec P E t.op (m.tk t.c t.a) = (ctorRest i f >>= fun _ => pure Reply.done) (m1.tk t.c t.a) := by
    rw [hop]
    simp only [M.bind_apply, e3.1, spend_zero]
  rw [tcall_eq, e5]
  have hq : ∀ {m' : Mem α} {blk' : Nat → Nat} {y' : Sys α} {c a : Option Nat}, MRep P L y' blk' m' → (m'.tk c a).er = m' :=
    fun h => er_mrep h
  rcases fault_cases t.c t.a (decide (P.N < n)) n with h0 | h0 | h0
  · rw [h0] at e4 ⊢
    obtain ⟨m', blk', c', a', f1, f2⟩ := e4
    refine ⟨m', blk', ?_, f2⟩
    simp only [M.bind_apply, f1, M.pure_apply, quiet, hq f2]
  · rw [h0] at e4 ⊢
    obtain ⟨m', blk', c', a', f1, f2⟩ := e4
    refine ⟨m', blk', ?_, f2⟩
    simp only [M.bind_apply, f1, quiet, hq f2]
  · rw [h0] at e4 ⊢
    simp only at e4 ⊢
    by_cases hi : n ≤ P.N ∧ b = true
    · rw [if_pos hi] at e4 ⊢
      obtain ⟨m', blk', c', a', f1, f2⟩ := e4
      refine ⟨m', blk', ?_, f2⟩
      simp only [M.bind_apply, f1, quiet, hq f2]
    · rw [if_neg hi] at e4 ⊢
      simp only [M.bind_apply, e4, quiet]

/-! ### All calls -/

theorem elems_okf (j : Nat) (m : Mem α) : OkF (at' j elems) m 0 0 :=
  at'_okf fun _ _ => Frame.bind0 (size_frame _) fun _ _ _ _ => Frame.load fun _ _ => rfl

theorem elems_tk {j : Nat} {w : V α} (hM : MRep P L y blk m) (hw : y j = some w) (c a : Option Nat) :
    at' j elems (m.tk c a) = .ok w.xs (m.tk c a) := by
  have := ((elems_okf j m).run c a (enough_zero _) (enough_zero _) w.xs m (by rw [er_mrep hM]; exact elems_mrep hM hw)).1
  simpa only [spend_zero] using this

/-- One call with throw points. -/
theorem tcall_mrep (E : Elem α) (hN : 0 < P.N) (hR : P.R ≤ P.N + 1) {t : TOp α} {r : Reply α × Sys α}
    (hM : MRep P L y blk m) (hs : MSafe P.N P.R t.op y) (h : mstep P.N P.R E t.op y = some r) :
    match mtstep P.N P.R E t y with
    | some (r', y') => ∃ m' blk', tcall P E t m = some (r', m') ∧ MRep P L y' blk' m'
    | none => match t.op with
      | .call i _ | .copyAssign i _ => ∃ e m', tcall P E t m = some (.exc e, m') ∧ destruct i m' = .ub
      | _ => tcall P E t m = none := by
  obtain ⟨r, y'⟩ := r
  have hcr : ∀ {i al n : Nat} {b : Bool} {f : M (St α) Unit} {xs : List α}, y i = none →
      mexec P E t.op (m.tk t.c t.a) = (construct P i al >>= fun _ => ctorRest i f >>= fun _ => pure Reply.done) (m.tk t.c t.a) →
      (∀ C k nx g, C.P = P → Good C .stat k [] nx g → NoThrow C →
        Fills C k nx g f n (choose P.N P.R n .stat) xs b) →
      (r, y') = (.done, y.put i (some ⟨al, choose P.N P.R n .stat, xs⟩)) →
      match (match fault t.c t.a (decide (P.N < n)) n with
        | none => some (r, y')
        | some .badAlloc => some (.exc .badAlloc, y)
        | some e => if n ≤ P.N ∧ b = true then some (.exc e, y) else none : Option (Reply α × Sys α)) with
      | some (r', y') => ∃ m' blk', tcall P E t m = some (r', m') ∧ MRep P L y' blk' m'
      | none => tcall P E t m = none := by
    intro i al n b f xs hy hop hf hr
    rw [hr]
    have := tcreate E hN hR hM hy hop hf
    rcases fault_cases t.c t.a (decide (P.N < n)) n with h0 | h0 | h0
    · rw [h0] at this ⊢; exact this
    · rw [h0] at this ⊢; exact this
    · rw [h0] at this ⊢
      simp only at this ⊢
      by_cases hi : n ≤ P.N ∧ b = true
      · rw [if_pos hi] at this ⊢; exact this
      · rw [if_neg hi] at this ⊢; exact this
  obtain ⟨op, c, a⟩ := t
  simp only at h hs hcr ⊢
  simp only [mtstep, h, Option.bind_eq_bind, Option.bind_some]
  cases op with
  | ctor i al =>
    refine tcall_quiet E hN hR hM hs h ?_ (OkF.done (construct_okf ..))
    simp only [mstep] at h
    split at h <;> simp at h
    rw [← h.1]; simp
  | ctorCount i al n =>
    simp only [mstep] at h
    split at h
    · simp at h
    · rename_i hy
      simp only [Option.some.injEq] at h
      have := hcr (i := i) (al := al) (n := n) (b := false) (by simpa using hy)
        (by simp only [mexec, ctorCount, M.bind_apply]; cases construct P i al (m.tk c a) <;> rfl)
        (fun C k nx g hP hG hT => by
          have := resizeV_fills (n := n) E E.dflt hG hT
          rwa [hP] at this) (by rw [← h]; simp)
      exact this
  | ctorVal i al n v =>
    simp only [mstep] at h
    split at h
    · simp at h
    · rename_i hy
      simp only [Option.some.injEq] at h
      have := hcr (i := i) (al := al) (n := n) (b := true) (by simpa using hy)
        (by simp only [mexec, ctorVal, M.bind_apply]; cases construct P i al (m.tk c a) <;> rfl)
        (fun C k nx g hP hG hT => by
          have := assignFill_fills (n := n) v hG hT
          rwa [hP] at this) (by rw [← h]; simp)
      simp only [and_true] at this ⊢
      exact this
  | ctorRange i al xs =>
    simp only [mstep] at h
    split at h
    · simp at h
    · rename_i hy
      simp only [Option.some.injEq] at h
      have := hcr (i := i) (al := al) (n := xs.length) (b := true) (by simpa using hy)
        (by simp only [mexec, ctorRange, M.bind_apply]; cases construct P i al (m.tk c a) <;> rfl)
        (fun C k nx g hP hG hT => by
          have := assignCopy_fills xs hG hT
          rwa [hP] at this) (by rw [← h])
      simp only [and_true] at this ⊢
      exact this
  | copyCtor i al j =>
    simp only [mstep, Option.bind_eq_bind, Option.bind_eq_some_iff] at h
    obtain ⟨w, hw, h⟩ := h
    simp only [hw, Option.bind_some]
    split at h
    · simp at h
    · rename_i hy
      simp only [Option.some.injEq] at h
      have := hcr (i := i) (al := al) (n := w.xs.length) (b := true) (by simpa using hy)
        (by simp only [mexec, copyCtor, M.bind_apply, elems_tk hM hw]; cases construct P i al (m.tk c a) <;> rfl)
        (fun C k nx g hP hG hT => by
          have := assignCopy_fills w.xs hG hT
          rwa [hP] at this) (by rw [← h])
      simp only [and_true] at this ⊢
      exact this
  | moveCtor i j =>
    refine tcall_quiet E hN hR hM hs h ?_ (OkF.done (moveCtor_okf ..))
    simp only [mstep, Option.bind_eq_bind, Option.bind_eq_some_iff] at h
    obtain ⟨w, hw, h⟩ := h
    split at h <;> simp at h
    rw [← h.1]; simp
  | copyAssign i j =>
    have h' := h
    simp only [mstep, Option.bind_eq_bind, Option.bind_eq_some_iff] at h
    obtain ⟨v, hv, w, hw, h⟩ := h
    simp only [hv, hw, Option.bind_some]
    by_cases hij : i = j
    · rw [if_pos hij]
      rw [if_pos hij] at h
      simp only [Option.some.injEq, Prod.mk.injEq] at h
      refine tcall_quiet E hN hR hM hs h' (by rw [← h.1]; simp) (OkF.done ?_)
      simp only [copyAssign, hij, if_true]
      exact at'_okf fun _ _ => Frame.pure ..
    · rw [if_neg hij]
      have h1 := tcall_at E hN hR hM hv (op := .assignRange w.xs) (r := _) trivial rfl c a
      have h2 : tcall P E ⟨.copyAssign i j, c, a⟩ m = quiet (at' i (exec P E (.assignRange w.xs)) (m.tk c a)) := by
        rw [tcall_eq]
        simp only [mexec, copyAssign, hij, if_false, M.bind_apply, elems_tk hM hw]
        rw [show exec P E (.assignRange w.xs) = (assignRange P w.xs >>= fun _ => pure Reply.done) from rfl]
        simp only [at', assignRange]
        cases (m.tk c a).vec i with
        | none => rfl
        | some v =>
          simp only [M.bind_apply]
          cases destroyAll ((m.tk c a).view v) with
          | ok _ s => simp only; cases assignCopy P w.xs s <;> rfl
          | throw => rfl
          | ub => rfl
      rw [h2]
      revert h1
      cases tstep P.N P.R E c a (.assignRange w.xs) v.home v.xs with
      | some x => obtain ⟨r', h', xs'⟩ := x; exact id
      | none => exact id
  | moveAssign i j =>
    refine tcall_quiet E hN hR hM hs h ?_ (OkF.done (moveAssign_okf ..))
    simp only [mstep, Option.bind_eq_bind, Option.bind_eq_some_iff] at h
    obtain ⟨v, hv, w, hw, h⟩ := h
    split at h <;> simp at h <;> (rw [← h.1]; simp)
  | dtor i =>
    refine tcall_quiet E hN hR hM hs h ?_ (OkF.done (destruct_okf ..))
    simp only [mstep, Option.bind_eq_bind, Option.bind_eq_some_iff] at h
    obtain ⟨v, hv, h⟩ := h
    simp at h
    rw [← h.1]; simp
  | call i op =>
    simp only [mstep, Option.bind_eq_bind, Option.bind_eq_some_iff] at h
    obtain ⟨v, hv, r1, hst, h⟩ := h
    simp only [hv, Option.bind_some]
    have h1 := tcall_at E hN hR hM hv (hs v hv) hst c a
    rw [tcall_eq]
    simp only [mexec]
    revert h1
    cases tstep P.N P.R E c a op v.home v.xs with
    | some x => obtain ⟨r', h', xs'⟩ := x; exact id
    | none => exact id

theorem mtrun_mrep (E : Elem α) (hN : 0 < P.N) (hR : P.R ≤ P.N + 1) : ∀ (ts : List (TOp α)) {y y' : Sys α}
    {blk : Nat → Nat} {m : Mem α} {rs : List (Reply α)}, MRep P L y blk m → MTSafeRun P.N P.R E ts y →
    Spec.mtrun P.N P.R E ts y = some (rs, y') →
    ∃ m' blk', mtrun P E ts m = some (rs, m') ∧ MRep P L y' blk' m' := by
  intro ts
  induction ts with
  | nil =>
    intro y y' blk m rs hM _ h
    simp only [Spec.mtrun, Option.some.injEq, Prod.mk.injEq] at h; obtain ⟨rfl, rfl⟩ := h
    exact ⟨m, blk, rfl, hM⟩
  | cons t ts ih =>
    intro y y' blk m rs hM hs h
    simp only [Spec.mtrun, Option.bind_eq_bind, Option.bind_eq_some_iff] at h
    obtain ⟨⟨r, y1⟩, h1, ⟨rs1, y2⟩, h2, h3⟩ := h
    simp only [Option.some.injEq, Prod.mk.injEq] at h3
    obtain ⟨rfl, rfl⟩ := h3
    obtain ⟨hs1, hs2⟩ := hs
    rw [h1] at hs2
    obtain ⟨r0, hr0⟩ : ∃ r0, mstep P.N P.R E t.op y = some r0 := by
      cases e : mstep P.N P.R E t.op y with
      | none => simp [mtstep, e] at h1
      | some r0 => exact ⟨r0, rfl⟩
    have e1 := tcall_mrep E hN hR hM hs1 hr0
    rw [h1] at e1
    obtain ⟨m1, blk1, e1, e2⟩ := e1
    obtain ⟨m2, blk2, e3, e4⟩ := ih e2 hs2 h2
    exact ⟨m2, blk2, by simp [mtrun, e1, e3], e4⟩

end Itlib.SmallVector
