import Verif.PodVector.MultiStep
import Verif.PodVector.FailExec

/-! # A failing allocation comes before any other effect, except in `safe_grow` -/
namespace Itlib.PodVector
open Itlib

variable {α β : Type} {P : Params}

/-- `f` does in `s` what `f'` does, or throws `bad_alloc` with no effect (but on the clock of the allocator) -/
def FailsAt (f f' : M St α) (s : St) : Prop :=
  f s = f' s ∨ ∃ t, f s = .throw .badAlloc { s with tick := t }

theorem FailsAt.refl (f : M St α) (s : St) : FailsAt f f s := .inl rfl

theorem FailsAt.bind {f f' : M St α} {s : St} (h : FailsAt f f' s) (g : α → M St β) : FailsAt (f >>= g) (f' >>= g) s := by
  rcases h with h | ⟨t, h⟩
  · left; simp only [M.bind_apply, h]
  · right; exact ⟨t, by simp only [M.bind_apply, h]⟩

/-- reads: `f` has no effect -/
def NoEff (f : M St α) : Prop := ∀ s, (∃ a, f s = .ok a s) ∨ f s = .ub

theorem FailsAt.read {f : M St α} (hf : NoEff f) {g g' : α → M St β} {s : St}
    (h : ∀ a, f s = .ok a s → FailsAt (g a) (g' a) s) : FailsAt (f >>= g) (f >>= g') s := by
  rcases hf s with ⟨a, e⟩ | e
  · rcases h a e with h | ⟨t, h⟩
    · left; simp only [M.bind_apply, e, h]
    · right; exact ⟨t, by simp only [M.bind_apply, e, h]⟩
  · left; simp only [M.bind_apply, e]

theorem FailsAt.later {f f' : M St α} {s : St} {t : Nat} (h : FailsAt f f' { s with tick := t }) :
    f { s with tick := t } = f' { s with tick := t } ∨ ∃ u, f { s with tick := t } = .throw .badAlloc { s with tick := u } := h

theorem noEff_get : NoEff M.get := fun s => .inl ⟨s, rfl⟩
theorem noEff_pure (a : α) : NoEff (pure a) := fun _ => .inl ⟨a, rfl⟩
theorem noEff_size : NoEff (size P) := by
  intro s
  simp only [size, M.bind_apply, M.get_apply]
  split
  · exact .inl ⟨_, rfl⟩
  · exact .inr rfl
theorem noEff_bindRef (v : Arg (List Byte)) : NoEff (bindRef P v) := by
  intro s
  cases v <;> exact .inl ⟨_, rfl⟩
theorem noEff_readAt (p : Ptr) (n : Nat) : NoEff (readAt p n) := by
  intro s
  simp only [readAt, M.load]
  split
  · exact .inl ⟨_, rfl⟩
  · exact .inr rfl
theorem NoEff.bind {f : M St α} {g : α → M St β} (hf : NoEff f) (hg : ∀ a, NoEff (g a)) : NoEff (f >>= g) := by
  intro s
  rcases hf s with ⟨a, e⟩ | e
  · rcases hg a s with ⟨b, e'⟩ | e'
    · exact .inl ⟨b, by simp only [M.bind_apply, e, e']⟩
    · exact .inr (by simp only [M.bind_apply, e, e'])
  · exact .inr (by simp only [M.bind_apply, e])
theorem noEff_realAddr (p : Ptr) : NoEff (realAddr P p) := by
  unfold realAddr
  split
  · exact noEff_pure _
  · split
    · exact noEff_pure _
    · split
      · exact fun s => .inr rfl
      · refine (noEff_readAt _ _).bind fun l => ?_
        split
        · split
          · exact noEff_pure _
          · exact fun s => .inr rfl
        · exact fun s => .inr rfl

/-! ### Allocation -/

theorem malloc_fails (ht : P.A.throws = true) (n : Nat) (s : St) : FailsAt (malloc P.A n) (malloc P.never.A n) s := by
  by_cases h : P.A.fails s.tick n = true
  · right; exact ⟨s.tick + 1, by simp only [malloc, h, if_true, noMemory, ht]⟩
  · left; simp only [malloc, h, Params.never, Alloc.never, Bool.false_eq_true, if_false]

theorem realloc_fails (ht : P.A.throws = true) (p : Ptr) (n : Nat) (s : St) :
    FailsAt (realloc P.A p n) (realloc P.never.A p n) s := by
  unfold FailsAt realloc
  by_cases hp : p = null
  · simp only [hp, if_true]; exact malloc_fails ht n s
  · simp only [hp, if_false]
    by_cases h0 : p.off = 0
    · simp only [h0, if_true]
      cases hb : s.heap p.base with
      | none => left; rfl
      | some b =>
        by_cases h : P.A.fails s.tick n = true
        · right; exact ⟨s.tick + 1, by simp only [h, if_true, noMemory, ht]⟩
        · left; simp only [h, Params.never, Alloc.never, Bool.false_eq_true, if_false]; rfl
    · left; simp only [h0, if_false]

theorem aMalloc_fails (ht : P.A.throws = true) (n : Nat) (s : St) : FailsAt (aMalloc P n) (aMalloc P.never n) s := by
  have e : P.never.aligned = P.aligned := rfl
  unfold aMalloc
  rw [e]
  by_cases ha : P.aligned = true
  · simp only [ha, if_true]; exact malloc_fails ht _ s
  · simp only [ha, Bool.false_eq_true, if_false]; exact (malloc_fails ht _ s).bind _

theorem mallocCopy_fails (ht : P.A.throws = true) (N n : Nat) (s : St) :
    FailsAt (mallocCopy P N n) (mallocCopy P.never N n) s := (aMalloc_fails ht N s).bind _

theorem mallocGap_fails (ht : P.A.throws = true) (N n pos num : Nat) (s : St) :
    FailsAt (mallocGap P N n pos num) (mallocGap P.never N n pos num) s := (aMalloc_fails ht N s).bind _

theorem aReallocBegin_fails (ht : P.A.throws = true) (n : Nat) (s : St) :
    FailsAt (aReallocBegin P n) (aReallocBegin P.never n) s := by
  have e : P.never.aligned = P.aligned := rfl
  unfold aReallocBegin
  refine FailsAt.read noEff_get fun a _ => ?_
  rw [e]
  by_cases ha : P.aligned = true
  · simp only [ha, if_true]
    exact (realloc_fails ht _ _ s).bind _
  · simp only [ha, Bool.false_eq_true, if_false]
    exact (aMalloc_fails ht _ s).bind _

theorem expand_false {p : Ptr} {n : Nat} {s s' : St} (h : expand P.A p n s = .ok false s') :
    s' = { s with tick := s.tick + 1 } := by
  unfold expand at h
  split at h
  · split at h
    · cases h
    · split at h
      · cases h
      · cases h; rfl
  · cases h

theorem aExpandBegin_cases (n : Nat) (s : St) :
    (∃ s', aExpandBegin P n s = .ok true s') ∨ (∃ t, aExpandBegin P n s = .ok false { s with tick := t }) ∨
      aExpandBegin P n s = .ub := by
  have key : ∀ p k, (∃ s', expand P.A p k s = .ok true s') ∨ (∃ t, expand P.A p k s = .ok false { s with tick := t }) ∨
      expand P.A p k s = .ub := by
    intro p k
    cases h : expand P.A p k s with
    | ok b s' =>
      cases b with
      | true => exact .inl ⟨_, rfl⟩
      | false => right; left; exact ⟨s.tick + 1, by rw [expand_false h]⟩
    | ub => exact .inr (.inr rfl)
    | throw e s' =>
      exfalso
      unfold expand at h
      split at h
      · split at h
        · cases h
        · split at h <;> cases h
      · cases h
  simp only [aExpandBegin, M.bind_apply, M.get_apply]
  by_cases ha : P.aligned = true
  · simp only [ha, if_true, M.bind_apply]
    rcases key s.v.bgn (n * P.sz) with ⟨s', h⟩ | ⟨t, h⟩ | h
    · left; simp only [h, if_true, M.bind_apply, setCap, M.modify_apply, M.pure_apply]; exact ⟨_, rfl⟩
    · right; left; exact ⟨t, by simp only [h, Bool.false_eq_true, if_false, M.pure_apply]⟩
    · right; right; simp only [h]
  · simp only [ha, Bool.false_eq_true, if_false, M.bind_apply]
    rcases noEff_realAddr (P := P) s.v.bgn s with ⟨p, e⟩ | e
    · rcases key p (n * P.sz + P.al) with ⟨s', h⟩ | ⟨t, h⟩ | h
      · left; simp only [e, h, if_true, M.bind_apply, setCap, M.modify_apply, M.pure_apply]; exact ⟨_, rfl⟩
      · right; left; exact ⟨t, by simp only [e, h, Bool.false_eq_true, if_false, M.pure_apply]⟩
      · right; right; simp only [e, h]
    · right; right; simp only [e]

/-- try to expand, and allocate otherwise -/
theorem expand_or_fails {f g g' : M St α} (n : Nat) (s : St) (h : ∀ t, FailsAt g g' { s with tick := t }) :
    FailsAt (aExpandBegin P n >>= fun ok => if ok then f else g) (aExpandBegin P.never n >>= fun ok => if ok then f else g') s := by
  have e : aExpandBegin P.never n = aExpandBegin P n := rfl
  rw [e]
  rcases aExpandBegin_cases (P := P) n s with ⟨s', h'⟩ | ⟨t, h'⟩ | h'
  · left; simp only [M.bind_apply, h', if_true]
  · rcases (h t).later with h | ⟨u, h⟩
    · left; simp only [M.bind_apply, h', h, Bool.false_eq_true, if_false]
    · right; exact ⟨u, by simp only [M.bind_apply, h', h, Bool.false_eq_true, if_false]⟩
  · left; simp only [M.bind_apply, h']

/-! ### The interface -/

theorem reserve_fails (ht : P.A.throws = true) (n : Nat) (s : St) : FailsAt (reserve P n) (reserve P.never n) s := by
  unfold reserve
  refine FailsAt.read noEff_get fun a ha => ?_
  by_cases hn : n ≤ a.v.cap
  · simp only [hn, if_true]; exact .refl _ _
  · simp only [hn, if_false]
    refine FailsAt.read (noEff_size (P := P)) fun k _ => ?_
    have e : P.never.A.hasExpand = P.A.hasExpand := rfl
    have e2 : P.never.A.wasteful = P.A.wasteful := rfl
    have e3 : P.never.sz = P.sz := rfl
    rw [e, e2, e3]
    by_cases hx : P.A.hasExpand = true
    · simp only [hx, if_true]
      by_cases h0 : a.v.bgn = null
      · simp only [h0, if_true]
        exact (aMalloc_fails ht _ s).bind _
      · simp only [h0, if_false]
        exact expand_or_fails _ _ fun t => (mallocCopy_fails ht _ _ _).bind _
    · simp only [hx, Bool.false_eq_true, if_false]
      by_cases hw : (a.v.cap - k) * P.sz > P.A.wasteful
      · simp only [hw, if_true]
        exact FailsAt.bind (mallocCopy_fails ht _ _ _) _
      · simp only [hw, if_false]
        exact FailsAt.bind (aReallocBegin_fails ht _ _) _

theorem shrinkToFit_fails (ht : P.A.throws = true) (s : St) : FailsAt (shrinkToFit P) (shrinkToFit P.never) s := by
  unfold shrinkToFit
  refine FailsAt.read (noEff_size (P := P)) fun k _ => ?_
  refine FailsAt.read noEff_get fun a _ => ?_
  by_cases hk : k = a.v.cap
  · simp only [hk, if_true]; exact .refl _ _
  · simp only [hk, if_false]
    by_cases h0 : k = 0
    · simp only [h0, if_true]; exact .refl _ _
    · simp only [h0, if_false]
      have e : P.never.A.hasExpand = P.A.hasExpand := rfl
      rw [e]
      by_cases hx : P.A.hasExpand = true
      · simp only [hx, if_true]
        exact expand_or_fails _ _ fun t => (aMalloc_fails ht _ _).bind _
      · simp only [hx, Bool.false_eq_true, if_false]
        exact (aReallocBegin_fails ht _ _).bind _

theorem resize_fails (ht : P.A.throws = true) (n : Nat) (s : St) : FailsAt (resize P n) (resize P.never n) s :=
  (reserve_fails ht n s).bind _

theorem growAt_fails (ht : P.A.throws = true) (pos num : Nat) (s : St) :
    FailsAt (growAt P pos num) (growAt P.never pos num) s := by
  unfold growAt
  refine FailsAt.read (noEff_size (P := P)) fun k _ => ?_
  by_cases hp : pos > k
  · simp only [hp, if_true]; exact .refl _ _
  · simp only [hp, if_false]
    by_cases hk : pos = k
    · simp only [hk, if_true]; exact (resize_fails ht _ _).bind _
    · simp only [hk, if_false]
      refine FailsAt.read noEff_get fun a _ => ?_
      by_cases hc : k + num > a.v.cap
      · simp only [hc, if_true]
        have e : P.never.A.hasExpand = P.A.hasExpand := rfl
        have e2 : P.never.A.wasteful = P.A.wasteful := rfl
        have e3 : P.never.sz = P.sz := rfl
        rw [e, e2, e3]
        by_cases hx : P.A.hasExpand = true
        · simp only [hx, if_true]
          exact expand_or_fails _ _ fun t => (mallocGap_fails ht _ _ _ _ _).bind _
        · simp only [hx, Bool.false_eq_true, if_false]
          by_cases hw : (a.v.cap - pos) * P.sz > P.A.wasteful
          · simp only [hw, if_true]
            exact (mallocGap_fails ht _ _ _ _ _).bind _
          · simp only [hw, if_false]
            exact (aReallocBegin_fails ht _ _).bind _
      · simp only [hc, if_false]; exact .refl _ _

theorem emplaceBack_fails (ht : P.A.throws = true) (s : St) : FailsAt (emplaceBack P) (emplaceBack P.never) s :=
  FailsAt.read (noEff_size (P := P)) fun _ _ => (reserve_fails ht _ _).bind _

theorem fill_never (r : Ref) (p : Ptr) (n : Nat) : fill P.never r p n = fill P r p n := by
  induction n generalizing p with
  | zero => rfl
  | succ n ih =>
    show (loadRef P r >>= fun l => writeAt p l >>= fun _ => fill P.never r (p.add P.sz) n) = _
    simp only [ih]; rfl

theorem insertN_fails (ht : P.A.throws = true) (pos n : Nat) (v : Arg (List Byte)) (s : St) :
    FailsAt (insertN P pos n v) (insertN P.never pos n v) s := by
  unfold insertN
  simp only [fill_never]
  exact FailsAt.read (noEff_bindRef (P := P) v) fun _ _ => (growAt_fails ht _ _ s).bind _

theorem resizeV_fails (ht : P.A.throws = true) (n : Nat) (v : Arg (List Byte)) (s : St) :
    FailsAt (resizeV P n v) (resizeV P.never n v) s := by
  unfold resizeV
  simp only [fill_never]
  exact FailsAt.read (noEff_bindRef (P := P) v) fun _ _ => (reserve_fails ht _ s).bind _

theorem safeGrow_same {n : Nat} {s : St} (h : n ≤ s.v.cap) : safeGrow P n s = safeGrow P.never n s := by
  simp only [safeGrow, M.bind_apply, M.get_apply, h, if_true]

theorem assignN_same {n : Nat} {s : St} (h : n ≤ s.v.cap) (v : Arg (List Byte)) :
    assignN P n v s = assignN P.never n v s := by
  unfold assignN
  simp only [fill_never]
  have e : bindRef P.never v = bindRef P v := rfl
  rw [e]
  rcases noEff_bindRef (P := P) v s with ⟨r, e'⟩ | e'
  · simp only [M.bind_apply, e', safeGrow_same (P := P) h]; rfl
  · simp only [M.bind_apply, e']

theorem assignCopy_same {n : Nat} {s : St} (h : n ≤ s.v.cap) (l : List Cell) :
    assignCopy P n l s = assignCopy P.never n l s := by
  unfold assignCopy
  simp only [M.bind_apply, safeGrow_same (P := P) h]; rfl

/-- every call but the assignments of more than fits: the allocation comes first -/
theorem exec_fails (ht : P.A.throws = true) (op : Spec.Op) (s : St) (hf : ¬ Spec.Fatal op s.v.cap) :
    FailsAt (exec P op) (exec P.never op) s := by
  cases op with
  | reserve n => exact (reserve_fails ht n s).bind _
  | shrinkToFit => exact (shrinkToFit_fails ht s).bind _
  | insert pos v =>
    exact (FailsAt.read (noEff_bindRef (P := P) v) fun _ _ => (growAt_fails ht _ _ s).bind _).bind _
  | insertN pos n v => exact (insertN_fails ht pos n v s).bind _
  | insertRange pos ys => exact ((growAt_fails ht _ _ s).bind _).bind _
  | emplaceBack => exact (emplaceBack_fails ht s).bind _
  | pushBack v =>
    exact (FailsAt.read (noEff_bindRef (P := P) v) fun _ _ => (emplaceBack_fails ht s).bind _).bind _
  | resize n => exact (resize_fails ht n s).bind _
  | resizeV n v => exact (resizeV_fails ht n v s).bind _
  | assignN n v =>
    simp only [Spec.Fatal, Nat.not_lt] at hf
    exact FailsAt.bind (.inl (assignN_same hf v)) _
  | assignRange ys =>
    simp only [Spec.Fatal, Nat.not_lt] at hf
    exact FailsAt.bind (.inl (assignCopy_same hf _)) _
  | clear => exact .refl _ _
  | erase pos => exact .refl _ _
  | eraseRange f l => exact .refl _ _
  | popBack => exact .refl _ _
  | set i x => exact .refl _ _
  | get i => exact .refl _ _
  | getBack => exact .refl _ _
  | size => exact .refl _ _
  | capacity => exact .refl _ _

/-! ### Calls that need no memory -/

theorem reserve_same {n : Nat} {s : St} (h : n ≤ s.v.cap) : reserve P n s = reserve P.never n s := by
  simp only [reserve, M.bind_apply, M.get_apply, h, if_true]

theorem resize_same {n : Nat} {s : St} (h : n ≤ s.v.cap) : resize P n s = resize P.never n s := by
  simp only [resize, M.bind_apply, reserve_same (P := P) h]; rfl

theorem growAt_same {pos num k : Nat} {s : St} (hk : size P s = .ok k s) (h : k + num ≤ s.v.cap) :
    growAt P pos num s = growAt P.never pos num s := by
  have hk' : size P.never s = .ok k s := hk
  unfold growAt
  simp only [M.bind_apply, hk, hk']
  by_cases hp : pos > k
  · simp only [hp, if_true]
  · simp only [hp, if_false]
    by_cases hpk : pos = k
    · simp only [hpk, if_true, M.bind_apply, resize_same (P := P) h]; rfl
    · have hc : ¬ k + num > s.v.cap := by omega
      simp only [hpk, if_false, M.bind_apply, M.get_apply, hc]; rfl

theorem exec_same {op : Spec.Op} {s : St} {k : Nat} {xs : List Spec.E} (hk : size P s = .ok k s) (hx : xs.length = k)
    (hc : k ≤ s.v.cap) (hw : ¬ Spec.Wants op s.v.cap xs) : exec P op s = exec P.never op s := by
  have hk' : size P.never s = .ok k s := hk
  have lift : ∀ {β γ : Type} {f f' : M St β} (g : β → M St γ), f s = f' s → (f >>= g) s = (f' >>= g) s := by
    intro β γ f f' g h
    simp only [M.bind_apply, h]
  have bnd : ∀ {γ : Type} (v : Arg (List Byte)) {g g' : Ref → M St γ}, (∀ r, g r s = g' r s) →
      (bindRef P v >>= g) s = (bindRef P.never v >>= g') s := by
    intro γ v g g' h
    have e : bindRef P.never v = bindRef P v := rfl
    rw [e]
    rcases noEff_bindRef (P := P) v s with ⟨r, e'⟩ | e'
    · simp only [M.bind_apply, e', h]
    · simp only [M.bind_apply, e']
  cases op with
  | reserve n => simp only [Spec.Wants, Nat.not_lt] at hw; exact lift _ (reserve_same hw)
  | shrinkToFit =>
    refine lift _ ?_
    simp only [Spec.Wants] at hw
    by_cases h0 : k = s.v.cap
    · simp only [shrinkToFit, M.bind_apply, hk, hk', M.get_apply, h0, if_true]
    · have h1 : k = 0 := by
        by_cases hn : xs = []
        · subst hn; exact hx.symm
        · exact absurd ⟨by omega, hn⟩ hw
      subst h1
      simp only [shrinkToFit, M.bind_apply, hk, hk', M.get_apply, h0, if_true, if_false]; rfl
  | insert pos v =>
    simp only [Spec.Wants, Nat.not_lt] at hw
    refine lift _ (bnd v fun r => lift _ (growAt_same hk (by omega)))
  | insertN pos n v =>
    simp only [Spec.Wants, Nat.not_lt] at hw
    refine lift _ ?_
    unfold insertN
    simp only [fill_never]
    exact bnd v fun r => lift _ (growAt_same hk (by omega))
  | insertRange pos ys =>
    simp only [Spec.Wants, Nat.not_lt] at hw
    exact lift _ (lift _ (growAt_same hk (by omega)))
  | emplaceBack =>
    simp only [Spec.Wants, Nat.not_lt] at hw
    refine lift _ ?_
    simp only [emplaceBack, M.bind_apply, hk, hk', reserve_same (P := P) (n := k + 1) (s := s) (by omega)]; rfl
  | pushBack v =>
    simp only [Spec.Wants, Nat.not_lt] at hw
    refine lift _ (bnd v fun r => lift _ ?_)
    simp only [emplaceBack, M.bind_apply, hk, hk', reserve_same (P := P) (n := k + 1) (s := s) (by omega)]; rfl
  | resize n => simp only [Spec.Wants, Nat.not_lt] at hw; exact lift _ (resize_same hw)
  | resizeV n v =>
    simp only [Spec.Wants, Nat.not_lt] at hw
    refine lift _ ?_
    unfold resizeV
    simp only [fill_never]
    exact bnd v fun r => lift _ (reserve_same hw)
  | assignN n v => simp only [Spec.Wants, Nat.not_lt] at hw; exact lift _ (assignN_same hw v)
  | assignRange ys => simp only [Spec.Wants, Nat.not_lt] at hw; exact lift _ (assignCopy_same hw _)
  | clear => rfl
  | erase pos => rfl
  | eraseRange f l => rfl
  | popBack => rfl
  | set i x => rfl
  | get i => rfl
  | getBack => rfl
  | size => rfl
  | capacity => rfl

end Itlib.PodVector
