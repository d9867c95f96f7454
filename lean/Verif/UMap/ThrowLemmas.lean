import Verif.UMap.Throw

/-! # A call of `transparent_umap` goes as if user code did not throw, or user code throws and the table stays as it was -/
namespace Itlib.UMap.T
variable {K V Q A α β : Type}
variable {L : Lang K V Q A} {lib : Lib K Q} {fails : Nat → Bool}

/-- the same table; memory was requested and values were made meanwhile -/
def Near (s s' : St K V) : Prop := s' = { s with allocs := s'.allocs, built := s'.built }

theorem Near.rfl {s : St K V} : Near s s := by cases s; simp [Near]

theorem Near.trans {a b c : St K V} (h : Near a b) (g : Near b c) : Near a c := by
  unfold Near at h g ⊢
  rw [g, h]

def lift (l : Option Nat) : Res (St K V) α → Res (TSt K V) α
  | .ok a s => .ok a ⟨s, l⟩
  | .throw e s => .throw e ⟨s, l⟩
  | .ub => .ub

/-- `P` does what `f` does, or user code throws; then at most `b` values were made -/
def Sim (b : Nat) (f : M (St K V) α) (P : M (TSt K V) α) (s : St K V) : Prop :=
  ∀ l, (∃ l', (l = none → l' = none) ∧ P ⟨s, l⟩ = lift l' (f s)) ∨
    (l ≠ none ∧ ∃ s' l', P ⟨s, l⟩ = .throw .user ⟨s', l'⟩ ∧ Near s s' ∧ s.built ≤ s'.built ∧ s'.built ≤ s.built + b)

theorem sim_act (f : M (St K V) α) (s : St K V) : Sim 0 f (act f) s := by
  intro l
  refine .inl ⟨l, id, ?_⟩
  simp only [act, lift]
  cases f s <;> simp

theorem sim_user (a : α) (s : St K V) : Sim 0 (pure a) (user a) s := by
  intro l
  cases l with
  | none => exact .inl ⟨none, id, rfl⟩
  | some n =>
    cases n with
    | zero => exact .inr ⟨by simp, s, some 0, rfl, .rfl, by omega, by omega⟩
    | succ n => exact .inl ⟨some n, by simp, rfl⟩

theorem sim_pure (a : α) (s : St K V) : Sim 0 (pure a) (pure a) s := fun l => .inl ⟨l, id, rfl⟩

theorem sim_raise (e : Exc) (s : St K V) : Sim (α := α) 0 (M.raise e) (M.raise e) s := fun l => .inl ⟨l, id, rfl⟩

theorem sim_undef (s : St K V) : Sim (α := α) 0 M.undef M.undef s := fun l => .inl ⟨l, id, rfl⟩

theorem Sim.mono {b b' : Nat} {f : M (St K V) α} {P : M (TSt K V) α} {s : St K V} (h : Sim b f P s) (hb : b ≤ b') : Sim b' f P s := by
  intro l
  rcases h l with h | ⟨h1, s', l', h2, h3, h4, h5⟩
  · exact .inl h
  · exact .inr ⟨h1, s', l', h2, h3, h4, by omega⟩

theorem sim_bind {b b' c : Nat} {f : M (St K V) α} {P : M (TSt K V) α} {g : α → M (St K V) β} {R : α → M (TSt K V) β} {s : St K V}
    (h : Sim b f P s) (hq : ∀ a s', f s = .ok a s' → Near s s' ∧ s'.built = s.built + c ∧ Sim b' (g a) (R a) s') :
    Sim (b + c + b') (f >>= g) (P >>= R) s := by
  intro l
  rcases h l with ⟨l1, h1, e1⟩ | ⟨h1, s', l', h2, h3, h4, h5⟩
  · cases ef : f s with
    | ok a s1 =>
      obtain ⟨hn, hb, hs⟩ := hq a s1 ef
      rw [ef] at e1
      simp only [lift] at e1
      rcases hs l1 with ⟨l2, h2, e2⟩ | ⟨h2, s2, l2, e2, h3, h4, h5⟩
      · exact .inl ⟨l2, fun hl => h2 (h1 hl), by simp only [M.bind_apply, e1, ef, e2]⟩
      · refine .inr ⟨fun hl => h2 (h1 hl), s2, l2, by simp only [M.bind_apply, e1, e2], hn.trans h3, by omega, by omega⟩
    | throw e s1 => exact .inl ⟨l1, h1, by rw [ef] at e1; simp only [M.bind_apply, e1, ef, lift]⟩
    | ub => exact .inl ⟨l1, h1, by rw [ef] at e1; simp only [M.bind_apply, e1, ef, lift]⟩
  · exact .inr ⟨h1, s', l', by simp only [M.bind_apply, h2], h3, h4, by omega⟩

/-- a first step that changes nothing -/
theorem sim_bind0 {b : Nat} {f : M (St K V) α} {P : M (TSt K V) α} {g : α → M (St K V) β} {R : α → M (TSt K V) β} {s : St K V}
    (h : Sim 0 f P s) (hf : ∀ a s', f s = .ok a s' → s' = s) (hq : ∀ a, f s = .ok a s → Sim b (g a) (R a) s) :
    Sim b (f >>= g) (P >>= R) s := by
  have := sim_bind (c := 0) (b' := b) h (g := g) (R := R) (by
    intro a s' e
    have := hf a s' e
    subst this
    exact ⟨.rfl, rfl, hq a e⟩)
  simpa using this

theorem scan_same (p : K → Bool) (l : List Nat) (s : St K V) (a : Option Nat) (s' : St K V)
    (h : UMap.scan p l s = .ok a s') : s' = s := by
  induction l with
  | nil => simp only [UMap.scan, M.pure_apply, Res.ok.injEq] at h; exact h.2.symm
  | cons r rs ih =>
    simp only [UMap.scan, M.bind_apply, M.get_apply] at h
    cases hr : s.nd r with
    | none => simp [hr, M.undef_apply] at h
    | some kv =>
      obtain ⟨k, v⟩ := kv
      simp only [hr] at h
      cases hp : p k with
      | true =>
        simp only [hp, if_true, M.pure_apply, Res.ok.injEq] at h
        exact h.2.symm
      | false =>
        simp only [hp, Bool.false_eq_true, if_false] at h
        exact ih h

theorem findK_same (k : K) (s : St K V) (a : Option Nat) (s' : St K V) (h : UMap.findK lib k s = .ok a s') : s' = s := by
  simp only [UMap.findK, M.bind_apply, M.get_apply] at h
  exact scan_same _ _ _ _ _ h

theorem findQ_same (q : Q) (s : St K V) (a : Option Nat) (s' : St K V) (h : UMap.findQ lib q s = .ok a s') : s' = s := by
  simp only [UMap.findQ, M.bind_apply, M.get_apply] at h
  exact scan_same _ _ _ _ _ h

theorem sim_get {b : Nat} {g : St K V → M (St K V) β} {R : TSt K V → M (TSt K V) β} {s : St K V}
    (h : Sim b (g s) (fun t => R t t) s) : Sim b (M.get >>= g) (M.get >>= R) s := h

theorem sim_scan (p : K → Bool) (l : List Nat) (s : St K V) : Sim 0 (UMap.scan p l) (scan p l) s := by
  induction l with
  | nil => exact sim_pure _ _
  | cons r rs ih =>
    cases hr : s.nd r with
    | none => intro l; exact .inl ⟨l, id, by simp [scan, UMap.scan, hr, lift]⟩
    | some kv =>
      obtain ⟨k, v⟩ := kv
      have := sim_bind0 (b := 0) (sim_user (p k) s) (g := fun b => if b then pure (some r) else UMap.scan p rs)
        (R := fun b => if b then pure (some r) else scan p rs) (by intro a s' h; simp at h; exact h.2.symm) (by
          intro a _
          cases a
          · simpa using ih
          · simpa using sim_pure _ _)
      intro l
      have h := this l
      simp only [M.bind_apply, M.pure_apply] at h
      simp only [scan, UMap.scan, M.bind_apply, M.get_apply, hr]
      exact h

theorem sim_findQ (q : Q) (s : St K V) : Sim 0 (UMap.findQ lib q) (findQ lib q) s := by
  have := sim_bind0 (b := 0) (sim_user (lib.hashQ q) s)
    (g := fun h => M.get >>= fun s => UMap.scan (lib.eqQ q) (s.bk (h % s.n)))
    (R := fun h => M.get >>= fun t => scan (lib.eqQ q) (t.mem.bk (h % t.mem.n))) (by intro a s' h; simp at h; exact h.2.symm) (by
      intro a _
      exact sim_scan (lib.eqQ q) (s.bk (a % s.n)) s)
  exact this

theorem sim_findK (k : K) (s : St K V) : Sim 0 (UMap.findK lib k) (findK lib k) s := by
  have := sim_bind0 (b := 0) (sim_user (lib.hash k) s)
    (g := fun h => M.get >>= fun s => UMap.scan (fun k' => lib.eq k k') (s.bk (h % s.n)))
    (R := fun h => M.get >>= fun t => scan (fun k' => lib.eq k k') (t.mem.bk (h % t.mem.n))) (by intro a s' h; simp at h; exact h.2.symm) (by
      intro a _
      exact sim_scan (fun k' => lib.eq k k') (s.bk (a % s.n)) s)
  exact this

theorem emplace_eq (k : K) (v : V) : UMap.emplace lib fails k v = (do
    UMap.alloc fails
    let k ← pure k
    let v ← pure v
    let old ← UMap.findK lib k
    match old with
    | some r => pure (r, false)
    | none => attach lib fails k v) := by
  rfl

theorem sim_emplace (k : K) (v : V) (s : St K V) : Sim 0 (UMap.emplace lib fails k v) (emplace lib fails k v) s := by
  rw [emplace_eq]
  refine sim_bind (c := 0) (b := 0) (b' := 0) (sim_act _ s) ?_
  intro _ s' h
  have hs : s' = { s with allocs := s.allocs + 1 } := by
    simp only [alloc] at h
    split at h
    · simp at h
    · simp only [Res.ok.injEq] at h; exact h.2.symm
  subst hs
  refine ⟨by simp [Near], rfl, ?_⟩
  refine sim_bind0 (sim_user _ _) (by intro a s' h; simp at h; exact h.2.symm) ?_
  intro k' _
  refine sim_bind0 (sim_user _ _) (by intro a s' h; simp at h; exact h.2.symm) ?_
  intro v' _
  refine sim_bind0 (sim_findK _ _) (findK_same _ _) ?_
  intro old _
  cases old with
  | some r => exact sim_pure _ _
  | none => exact sim_act _ _

/-- `try_emplace`: a value is made in vain only if there is no entry -/
theorem sim_tryEmplace (q : Q) (v : Option V) (s : St K V) (r : Option Nat) (hr : UMap.findQ lib q s = .ok r s) :
    Sim (if r.isNone && v.isSome then 1 else 0) (UMap.tryEmplace L lib fails q v) (tryEmplace L lib fails q v) s := by
  refine sim_bind0 (sim_findQ _ _) (findQ_same _ _) ?_
  intro r' h
  rw [hr] at h
  simp only [Res.ok.injEq, and_true] at h
  subst h
  cases r with
  | some r => exact sim_pure _ _
  | none =>
    cases v with
    | none => intro l; exact .inl ⟨l, id, rfl⟩
    | some v =>
      refine sim_bind (c := 1) (b := 0) (b' := 0) (sim_act _ s) ?_
      intro v' s' h
      simp only [build, M.bind_apply, M.modify_apply, M.pure_apply, Res.ok.injEq] at h
      obtain ⟨rfl, rfl⟩ := h
      exact ⟨by simp [Near], rfl, sim_emplace _ _ _⟩

theorem sim_bind_last {b : Nat} {f : M (St K V) α} {P : M (TSt K V) α} {s : St K V} (h : Sim b f P s) (g : α → β) :
    Sim b (do let a ← f; pure (g a)) (do let a ← P; pure (g a)) s := by
  intro l
  rcases h l with ⟨l1, h1, e1⟩ | ⟨h1, s', l', h2, h3, h4, h5⟩
  · refine .inl ⟨l1, h1, ?_⟩
    cases ef : f s <;> rw [ef] at e1 <;> simp only [M.bind_apply, e1, ef, lift] <;> rfl
  · exact .inr ⟨h1, s', l', by simp only [M.bind_apply, h2], h3, h4, h5⟩

theorem sim_at (q : Q) (s : St K V) : Sim 0 (UMap.at_ lib q) (at_ lib q) s := by
  refine sim_bind0 (sim_findQ _ _) (findQ_same _ _) ?_
  intro r _
  cases r with
  | some r => exact sim_pure _ _
  | none => exact sim_raise _ _

theorem sim_erase (k : K) (s : St K V) : Sim 0 (UMap.erase lib k) (erase lib k) s := by
  refine sim_bind0 (sim_findK _ _) (findK_same _ _) ?_
  intro r _
  cases r with
  | none => exact sim_pure _ _
  | some r => exact sim_act (detach lib k r) s

/-- steps without user code -/
theorem quiet {f : M (St K V) α} {P : M (TSt K V) α} {s : St K V} (l : Option Nat) (h : P ⟨s, l⟩ = lift l (f s)) (g : α → β) :
    (do let a ← P; pure (g a) : M (TSt K V) β) ⟨s, l⟩ = lift l ((do let a ← f; pure (g a) : M (St K V) β) s) := by
  cases ef : f s <;> rw [ef] at h <;> simp only [M.bind_apply, h, ef, lift] <;> rfl

end Itlib.UMap.T
