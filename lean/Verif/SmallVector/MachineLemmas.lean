import Verif.SmallVector.Machine
import Verif.SmallVector.ThrowStep

/-! # When the sizes are modest the arithmetic of `size_t` makes no difference -/
namespace Itlib.SmallVector.W
open Itlib M Spec
variable {α : Type} {P : Params} {E : Elem α} {s : St α}

theorem grow_eq {c : Nat} (h : c * 3 + 1 < lim) : grow c = (c * 3 + 1) / 2 := by
  simp only [grow]
  rw [Nat.mod_eq_of_lt (a := c * 3) (by omega), Nat.mod_eq_of_lt h]

theorem rounds_spec {d : Nat} (hd : 3 * d ≤ lim) : ∀ f c, 0 < c → d ≤ c + f →
    ∃ k, rounds k c = growLoop d f c ∧ d ≤ rounds k c ∧ ∀ j, j < k → rounds j c < d
  | 0, c, _, h => ⟨0, rfl, by simpa [rounds] using h, by intro j hj; omega⟩
  | f+1, c, hc, h => by
    by_cases hcd : c < d
    · have hg : grow c = (c * 3 + 1) / 2 := grow_eq (by omega)
      obtain ⟨k, h1, h2, h3⟩ := rounds_spec hd f ((c * 3 + 1) / 2) (by omega) (by omega)
      refine ⟨k + 1, by simp only [rounds, hg, h1, growLoop, hcd, if_true], by simpa only [rounds, hg] using h2, ?_⟩
      intro j hj
      cases j with
      | zero => exact hcd
      | succ j => simp only [rounds, hg]; exact h3 j (by omega)
    · exact ⟨0, by simp [rounds, growLoop, hcd], by simpa [rounds] using hcd, by intro j hj; omega⟩

theorem newCap_eq {c d : Nat} (h0 : 0 < c) (hd : 3 * d ≤ lim) : (newCap c d : M (St α) Nat) = pure (growLoop d d c) := by
  obtain ⟨k, h1, h2, h3⟩ := rounds_spec hd d c h0 (by omega)
  have h : ∃ k, d ≤ rounds k c := ⟨k, h2⟩
  have hf : Nat.find h = k := by
    rw [Nat.find_eq_iff]
    exact ⟨h2, fun n hn => by have := h3 n hn; omega⟩
  simp only [newCap, dif_pos h]
  rw [hf, h1]

/-- asking for `d` makes no difference in this state -/
def Fine (s : St α) (d : Nat) : Prop := s.v.isStatic = true ∨ d ≤ s.v.cap ∨ (0 < s.v.cap ∧ 3 * d ≤ lim)

theorem chooseData_eq {d : Nat} (h : Fine s d) : chooseData P d s = SmallVector.chooseData P d s := by
  simp only [chooseData, SmallVector.chooseData, bind_apply, get_apply]
  split
  · rfl
  · rename_i hs
    split
    · rename_i hd
      rcases h with h | h | ⟨h0, h⟩
      · exact absurd h hs
      · omega
      · simp only [bind_apply, newCap_eq h0 h, pure_apply]
    · rfl

theorem reserve_eq {n : Nat} (h : Fine s n) : reserve P E n s = SmallVector.reserve P E n s := by
  simp only [reserve, SmallVector.reserve, bind_apply, get_apply]
  split
  · rfl
  · simp only [bind_apply, chooseData_eq h]

/-- the pointers belong together -/
def Tidy (s : St α) : Prop := s.v.endp = s.v.bgn

theorem size_tidy (h : Tidy s) : size s = .ok s.v.endo s := by
  simp only [size, bind_apply, get_apply]
  rw [if_pos (show s.v.endp = s.v.bgn from h)]; rfl

theorem growAt_eq {pos : Int} {n : Nat} (ht : Tidy s) (h : Fine s (s.v.endo + n)) (hl : s.v.endo + n < lim) :
    growAt P E pos n s = SmallVector.growAt P E pos n s := by
  simp only [growAt, SmallVector.growAt, bind_apply, size_tidy ht]
  split
  · rfl
  · simp only [bind_apply, Nat.mod_eq_of_lt hl, chooseData_eq h]

theorem shrinkAt_eq {pos : Int} {n : Nat} (ht : Tidy s) (hc : s.v.endo ≤ s.v.cap) :
    shrinkAt P E pos n s = SmallVector.shrinkAt P E pos n s := by
  simp only [shrinkAt, SmallVector.shrinkAt, bind_apply, size_tidy ht]
  split
  · rfl
  · split
    · rfl
    · simp only [bind_apply]
      rw [chooseData_eq (.inr (.inl (by omega)))]

theorem bindRef_ok (v : Arg α) (s : St α) : ∃ r, bindRef v s = .ok r s := by
  cases v <;> exact ⟨_, rfl⟩

theorem resizeV_eq {n : Nat} {v : Arg α} (h : Fine s n) : resizeV P E n v s = SmallVector.resizeV P E n v s := by
  obtain ⟨r, hr⟩ := bindRef_ok v s
  simp only [resizeV, SmallVector.resizeV, bind_apply, hr, reserve_eq h]

theorem assignFill_eq {n : Nat} {r : Ref α} (h : Fine s n) : assignFill P n r s = SmallVector.assignFill P n r s := by
  simp only [assignFill, SmallVector.assignFill, bind_apply, chooseData_eq h]

theorem assignCopy_eq {xs : List α} (h : Fine s xs.length) : assignCopy P xs s = SmallVector.assignCopy P xs s := by
  simp only [assignCopy, SmallVector.assignCopy, bind_apply, chooseData_eq h]

theorem setBuf_v (s : St α) (l : Loc) (b : Buf α) : (s.setBuf l b).v.cap = s.v.cap ∧ (s.setBuf l b).v.isStatic = s.v.isStatic := by
  cases l <;> exact ⟨rfl, rfl⟩

theorem onLoc_v {l : Loc} {f : Buf α → Option (Buf α)} {s' : St α} (h : onLoc l f s = .ok () s') :
    s'.v.cap = s.v.cap ∧ s'.v.isStatic = s.v.isStatic := by
  simp only [onLoc, M.mem, Option.bind_eq_bind] at h
  cases h1 : s.buf l with
  | none => simp [h1] at h
  | some b =>
    cases h2 : f b with
    | none => simp [h1, h2] at h
    | some b' =>
      simp only [h1, h2, Option.bind_some, Res.ok.injEq, true_and] at h
      rw [← h]
      exact setBuf_v s l b'

theorem destroyAll_cases (s : St α) : destroyAll s = .ub ∨ ∃ s', destroyAll s = .ok () s' ∧ s'.v.cap = s.v.cap ∧ s'.v.isStatic = s.v.isStatic := by
  simp only [destroyAll, bind_apply]
  by_cases ht : Tidy s
  · rw [size_tidy ht]
    simp only [get_apply]
    cases h : onLoc s.v.bgn (fun x => x.destroyRange 0 s.v.endo) s with
    | ok u s' => exact .inr ⟨s', rfl, onLoc_v h⟩
    | throw e s' =>
      simp only [onLoc, M.mem] at h
      split at h <;> cases h
    | ub => exact .inl rfl
  · left
    simp only [size, bind_apply, get_apply]
    rw [if_neg (show ¬ s.v.endp = s.v.bgn from ht)]; rfl

theorem Fine.of {s' : St α} {d : Nat} (h : Fine s d) (hc : s'.v.cap = s.v.cap) (hs : s'.v.isStatic = s.v.isStatic) : Fine s' d := by
  simpa only [Fine, hc, hs] using h

theorem destroy_assign {xs : List α} (h : Fine s xs.length) :
    (do destroyAll; assignCopy P xs : M (St α) Unit) s = (do destroyAll; SmallVector.assignCopy P xs) s := by
  simp only [bind_apply]
  rcases destroyAll_cases s with h1 | ⟨s', h1, hc, hs⟩
  · rw [h1]
  · rw [h1]; exact assignCopy_eq (h.of hc hs)

theorem exec_eq {op : Op α} (ht : Tidy s) (hc : s.v.endo ≤ s.v.cap)
    (h : ∀ xs : List α, xs.length = s.v.endo → Fine s (demand op xs) ∧ demand op xs < lim) :
    exec P E op s = SmallVector.exec P E op s := by
  have hx := h (List.replicate s.v.endo (E.dflt)) (by simp)
  cases op with
  | pushBack v =>
    simp only [demand, List.length_replicate] at hx
    obtain ⟨r, hr⟩ := bindRef_ok v s
    simp only [exec, SmallVector.exec, pushBack, SmallVector.pushBack, bind_apply, hr, size_tidy ht, growAt_eq ht hx.1 hx.2]
  | emplaceBack v =>
    simp only [demand, List.length_replicate] at hx
    obtain ⟨r, hr⟩ := bindRef_ok v s
    simp only [exec, SmallVector.exec, emplaceBack, SmallVector.emplaceBack, bind_apply, hr, size_tidy ht, growAt_eq ht hx.1 hx.2]
  | popBack =>
    simp only [exec, SmallVector.exec, popBack, SmallVector.popBack, bind_apply, size_tidy ht, shrinkAt_eq ht hc]
  | insert pos v =>
    simp only [demand, List.length_replicate] at hx
    obtain ⟨r, hr⟩ := bindRef_ok v s
    simp only [exec, SmallVector.exec, insert, SmallVector.insert, bind_apply, hr, growAt_eq ht hx.1 hx.2]
  | insertN pos n v =>
    simp only [demand, List.length_replicate] at hx
    obtain ⟨r, hr⟩ := bindRef_ok v s
    simp only [exec, SmallVector.exec, insertN, SmallVector.insertN, bind_apply, hr, growAt_eq ht hx.1 hx.2]
  | insertRange pos ys =>
    simp only [demand, List.length_replicate] at hx
    simp only [exec, SmallVector.exec, insertRange, SmallVector.insertRange, bind_apply, growAt_eq ht hx.1 hx.2]
  | erase pos =>
    simp only [exec, SmallVector.exec, erase, SmallVector.erase, bind_apply, shrinkAt_eq ht hc]
  | eraseRange f l =>
    simp only [exec, SmallVector.exec, eraseRange, SmallVector.eraseRange, bind_apply]
    by_cases hf : f > l
    · rw [if_pos hf, if_pos hf]
    · rw [if_neg hf, if_neg hf, shrinkAt_eq ht hc]
  | resize n => simp only [exec, SmallVector.exec, bind_apply, resizeV_eq (show Fine s n from hx.1)]
  | resizeV n v => simp only [exec, SmallVector.exec, bind_apply, resizeV_eq (show Fine s n from hx.1)]
  | reserve n => simp only [exec, SmallVector.exec, bind_apply, reserve_eq (show Fine s n from hx.1)]
  | assignN n v =>
    obtain ⟨r, hr⟩ := bindRef_ok v s
    simp only [exec, SmallVector.exec, assignN, SmallVector.assignN, bind_apply, hr]
    rcases destroyAll_cases s with h1 | ⟨s', h1, h2, h3⟩
    · rw [h1]
    · rw [h1]; simp only [assignFill_eq (Fine.of (show Fine s n from hx.1) h2 h3)]
  | assignRange ys =>
    simp only [exec, SmallVector.exec, assignRange, SmallVector.assignRange]
    have := destroy_assign (P := P) (xs := ys) (show Fine s ys.length from hx.1)
    simp only [bind_apply] at this ⊢
    rw [this]
  | _ => rfl

/-! ### Several vectors -/

variable {m : Mem α} {L : Nat → Option (Block α)} {y y' : Sys α} {blk : Nat → Nat}

theorem at_congr {β : Type} {i : Nat} {v : Vec α} {f g : M (St α) β} (hv : m.vec i = some v) (h : f (m.view v) = g (m.view v)) :
    at' i f m = at' i g m := by
  simp only [at', hv, h]

theorem bind_at {σ β γ : Type} {f g : M σ β} {x : σ} (h : f x = g x) (k : β → M σ γ) : (f >>= k) x = (g >>= k) x := by
  simp only [bind_apply, h]

theorem ctor_congr {i al : Nat} {f g : M (St α) Unit}
    (h : ∀ s : St α, s.v.isStatic = true → f s = g s) : (do construct P i al; ctorRest i f : M (Mem α) Unit) m = (do construct P i al; ctorRest i g) m := by
  simp only [bind_apply]
  cases hc : construct P i al m with
  | ok u m' =>
    simp only
    have hv : m'.vec i = some ⟨i, .stat i, .stat i, 0, P.N, al, Buf.fresh P.N⟩ := by
      simp only [construct, M.mem] at hc
      cases hm : m.vec i with
      | some w => simp [hm] at hc
      | none => simp only [hm, Res.ok.injEq, true_and] at hc; rw [← hc]; simp
    simp only [ctorRest, at_congr hv (h (m'.view ⟨i, .stat i, .stat i, 0, P.N, al, Buf.fresh P.N⟩) (by simp [Mem.view, Vec.isStatic]))]
  | throw e m' => rfl
  | ub => rfl

theorem fine_rep {i k : Nat} {v : V α} {d : Nat} (hd : v.home.Modest d) (hN : 0 < P.N) (hown : ∀ c, v.home = .dyn c → P.N ≤ c) {s : St α}
    (hs : s.v = vecRep P i k v) : Fine s d ∧ d < lim := by
  cases hh : v.home with
  | stat =>
    rw [hh] at hd
    exact ⟨.inl (by simp [hs, vecRep, Vec.isStatic, hh, loc]), hd⟩
  | dyn c =>
    rw [hh] at hd
    have := hown c hh
    have hd' : 3 * d ≤ 2 ^ 64 := hd
    refine ⟨.inr (.inr ⟨?_, hd'⟩), ?_⟩
    · simp only [hs, vecRep, hh, Home.cap]; omega
    · simp only [lim]; omega

/-- One call: the same as in the model with unbounded numbers. -/
theorem mexec_eq (hN : 0 < P.N) (hM : MRep P L y blk m) {op : MOp α} (hmod : Modest op y) (c a : Option Nat) :
    mexec P E op { m with ctick := c, atick := a } = SmallVector.mexec P E op { m with ctick := c, atick := a } := by
  cases op with
  | ctorCount i al n =>
    simp only [mexec, SmallVector.mexec, ctorCount, SmallVector.ctorCount]
    exact bind_at (ctor_congr fun s hs => resizeV_eq (.inl hs)) _
  | ctorVal i al n x =>
    simp only [mexec, SmallVector.mexec, ctorVal, SmallVector.ctorVal]
    exact bind_at (ctor_congr fun s hs => assignFill_eq (.inl hs)) _
  | ctorRange i al xs =>
    simp only [mexec, SmallVector.mexec, ctorRange, SmallVector.ctorRange]
    exact bind_at (ctor_congr fun s hs => assignCopy_eq (.inl hs)) _
  | copyCtor i al j =>
    simp only [mexec, SmallVector.mexec, copyCtor, SmallVector.copyCtor]
    rw [bind_apply, bind_apply, bind_apply, bind_apply]
    cases at' j elems { m with ctick := c, atick := a } with
    | ok xs m' => simp only [ctor_congr (m := m') (f := assignCopy P xs) (g := SmallVector.assignCopy P xs) fun s hs => assignCopy_eq (.inl hs)]
    | throw e m' => rfl
    | ub => rfl
  | copyAssign i j =>
    simp only [mexec, SmallVector.mexec, copyAssign, SmallVector.copyAssign]
    by_cases hij : i = j
    · rw [if_pos hij, if_pos hij]
    · rw [if_neg hij, if_neg hij, bind_apply, bind_apply, bind_apply, bind_apply]
      cases hyj : y j with
      | none =>
        have : m.vec j = none := by rw [hM.vec, hyj]; rfl
        have : at' j elems { m with ctick := c, atick := a } = .ub := by simp only [at', this]
        rw [this]
      | some w =>
        have he := elems_tk hM hyj c a
        rw [show ({ m with ctick := c, atick := a } : Mem α) = m.tk c a from rfl, he]
        simp only
        cases hyi : y i with
        | none =>
          have : (m.tk c a).vec i = none := by show m.vec i = none; rw [hM.vec, hyi]; rfl
          simp only [at', this]
        | some v =>
          have hv : (m.tk c a).vec i = some (vecRep P i (blk i) v) := by show m.vec i = _; rw [hM.vec, hyi]; rfl
          have hf := fine_rep (hmod v w hyi hyj) hN (fun c hc => (hM.own i v c hyi hc).2) (s := (m.tk c a).view (vecRep P i (blk i) v)) rfl
          rw [at_congr hv (destroy_assign hf.1)]
  | call i op =>
    simp only [mexec, SmallVector.mexec]
    cases hyi : y i with
    | none =>
      have : m.vec i = none := by rw [hM.vec, hyi]; rfl
      simp only [at', this]
    | some v =>
      have hv : m.vec i = some (vecRep P i (blk i) v) := by rw [hM.vec, hyi]; rfl
      refine at_congr (m := { m with ctick := c, atick := a }) hv (exec_eq rfl (hM.len i v hyi) fun xs hxs => ?_)
      have : demand op xs = demand op v.xs := by
        have hl : xs.length = v.xs.length := hxs
        cases op <;> simp only [demand, hl]
      rw [this]
      exact fine_rep (hmod v hyi) hN (fun c hc => (hM.own i v c hyi hc).2) rfl
  | _ => rfl

theorem tcall_eq (hN : 0 < P.N) (hM : MRep P L y blk m) {t : TOp α} (hmod : Modest t.op y) : tcall P E t m = SmallVector.tcall P E t m := by
  simp only [tcall, SmallVector.tcall, mexec_eq hN hM hmod]
  cases SmallVector.mexec P E t.op { m with ctick := t.c, atick := t.a } <;> rfl

end Itlib.SmallVector.W
