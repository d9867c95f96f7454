import Verif.FlatOver.Model
import Verif.Flat.Props

/-! # The programs over a container simulate those over an ideal sequence (no property statements here) -/
namespace Itlib.FlatOver
open Itlib Itlib.Flat

/-- contents of all containers that exist -/
abbrev Conts (ε : Type) := Nat → Option (List ε)

/-- The container behaves like a sequence of at most `cap` elements: `rep y s` says that memory `s` holds the containers
`y`. `sw`: the container has a member `swap`. -/
structure Refines {σ ε : Type} (C : Cont σ ε) (cap : Option Nat) (sw : Bool) (rep : Conts ε → σ → Prop) : Prop where
  len : ∀ {y s i xs}, rep y s → y i = some xs → Spec.fits cap xs.length = true
  ctor : ∀ {y s i}, rep y s → y i = none → ∃ s', C.ctor i s = .ok () s' ∧ rep (Function.update y i (some [])) s'
  ctorRange : ∀ {y s i xs}, rep y s → y i = none → Spec.fits cap xs.length = true →
    ∃ s', C.ctorRange i xs s = .ok () s' ∧ rep (Function.update y i (some xs)) s'
  ctorRange_full : ∀ {y s i xs}, rep y s → y i = none → Spec.fits cap xs.length = false →
    ∃ s', C.ctorRange i xs s = .throw .outOfRange s' ∧ rep y s'
  copyCtor : ∀ {y s i j xs}, rep y s → y i = none → y j = some xs →
    ∃ s', C.copyCtor i j s = .ok () s' ∧ rep (Function.update y i (some xs)) s'
  moveCtor : ∀ {y s i j xs}, rep y s → y i = none → y j = some xs →
    ∃ s', C.moveCtor i j s = .ok () s' ∧ rep (Function.update (Function.update y i (some xs)) j (some [])) s'
  copyAssign : ∀ {y s i j zs xs}, rep y s → y i = some zs → y j = some xs →
    ∃ s', C.copyAssign i j s = .ok () s' ∧ rep (Function.update y i (some xs)) s'
  moveAssign : ∀ {y s i j zs xs}, rep y s → y i = some zs → y j = some xs → i ≠ j →
    ∃ s', C.moveAssign i j s = .ok () s' ∧ rep (Function.update (Function.update y i (some xs)) j (some [])) s'
  swap : sw = true → ∀ {y s i j zs xs}, rep y s → y i = some zs → y j = some xs →
    ∃ s', C.swap i j s = .ok () s' ∧ rep (Function.update (Function.update y i (some xs)) j (some zs)) s'
  dtor : ∀ {y s i xs}, rep y s → y i = some xs → ∃ s', C.dtor i s = .ok () s' ∧ rep (Function.update y i none) s'
  size : ∀ {y s i xs}, rep y s → y i = some xs → C.size i s = .ok xs.length s
  get : ∀ {y s i xs p}, rep y s → y i = some xs → (h : p < xs.length) → C.get i p s = .ok xs[p] s
  set : ∀ {y s i xs p} (e : ε), rep y s → y i = some xs → p < xs.length →
    ∃ s', C.set i p e s = .ok () s' ∧ rep (Function.update y i (some (xs.set p e))) s'
  moveElem : ∀ {y s i xs p q}, rep y s → y i = some xs → p < xs.length → (h : q < xs.length) → p ≠ q →
    ∃ s' w, C.moveElem i p q s = .ok () s' ∧ rep (Function.update y i (some ((xs.set p xs[q]).set q w))) s'
  emplace : ∀ {y s i xs p} (e : ε), rep y s → y i = some xs → p ≤ xs.length → cap ≠ some xs.length →
    ∃ s', C.emplace i p e s = .ok p s' ∧ rep (Function.update y i (some (xs.take p ++ e :: xs.drop p))) s'
  emplace_full : ∀ {y s i xs p} (e : ε), rep y s → y i = some xs → p ≤ xs.length → cap = some xs.length →
    ∃ s', C.emplace i p e s = .throw .outOfRange s' ∧ rep y s'
  erase : ∀ {y s i xs p}, rep y s → y i = some xs → p < xs.length →
    ∃ s', C.erase i p s = .ok p s' ∧ rep (Function.update y i (some (xs.eraseIdx p))) s'
  eraseToEnd : ∀ {y s i xs p}, rep y s → y i = some xs → p ≤ xs.length →
    ∃ s', C.eraseRange i p xs.length s = .ok p s' ∧ rep (Function.update y i (some (xs.take p))) s'
  clear : ∀ {y s i xs}, rep y s → y i = some xs → ∃ s', C.clear i s = .ok () s' ∧ rep (Function.update y i (some [])) s'
  eq : ∀ {y s i j xs zs} (eqv : ε → ε → Bool), rep y s → y i = some xs → y j = some zs →
    C.eq eqv i j s = .ok (eqCs eqv xs zs) s

section sim
variable {σ κ ε : Type} {key : ε → κ} {C : Cont σ ε} {cap : Option Nat} {sw : Bool} {rep : Conts ε → σ → Prop} {i : Nat}

/-- outcome `g` of a program on container `i` corresponds to that on the ideal sequence, if that is defined -/
def Simulates (rep : Conts ε → σ → Prop) (i : Nat) (y : Conts ε) (lt : κ → κ → Bool) {β : Type} :
    Res (Flat κ ε) β → Res σ β → Prop
  | .ok b t, g => t.lt = lt ∧ ∃ s', g = .ok b s' ∧ rep (Function.update y i (some t.cs)) s'
  | .throw e t, g => t.lt = lt ∧ ∃ s', g = .throw e s' ∧ rep (Function.update y i (some t.cs)) s'
  | .ub, _ => True

/-- `g`, on container `i`, does what `f` does on the ideal sequence, whenever that is defined -/
def Sim (rep : Conts ε → σ → Prop) (i : Nat) {β : Type} (f : M (Flat κ ε) β) (g : M σ β) : Prop :=
  ∀ y s lt xs, rep y s → y i = some xs → Simulates rep i y lt (f ⟨lt, xs⟩) (g s)

theorem upd_same {y : Conts ε} {xs : List ε} (h : y i = some xs) : Function.update y i (some xs) = y := by
  rw [← h, Function.update_eq_self]

theorem Simulates.upd {β : Type} {y : Conts ε} {v : Option (List ε)} {lt : κ → κ → Bool} {f : Res (Flat κ ε) β} {g : Res σ β}
    (h : Simulates rep i (Function.update y i v) lt f g) : Simulates rep i y lt f g := by
  cases f <;> simpa only [Simulates, Function.update_idem] using h

theorem Sim.pure {β : Type} (b : β) : Sim (κ := κ) rep i (pure b) (pure b) := by
  intro y s lt xs h hy
  refine ⟨rfl, s, rfl, ?_⟩
  rw [upd_same hy]; exact h

theorem Sim.raise {β : Type} (e : Exc) : Sim (κ := κ) rep i (.raise e : M _ β) (.raise e) := by
  intro y s lt xs h hy
  refine ⟨rfl, s, rfl, ?_⟩
  rw [upd_same hy]; exact h

theorem Sim.bind {β γ : Type} {f : M (Flat κ ε) β} {g : M σ β} {f' : β → M (Flat κ ε) γ} {g' : β → M σ γ}
    (h1 : Sim rep i f g) (h2 : ∀ b, Sim rep i (f' b) (g' b)) : Sim rep i (f >>= f') (g >>= g') := by
  intro y s lt xs h hy
  have := h1 y s lt xs h hy
  simp only [M.bind_apply]
  cases hf : f ⟨lt, xs⟩ with
  | ub => trivial
  | throw e t =>
    rw [hf] at this
    obtain ⟨e1, s', e2, e3⟩ := this
    exact ⟨e1, s', by rw [e2], e3⟩
  | ok b t =>
    rw [hf] at this
    obtain ⟨e1, s', e2, e3⟩ := this
    obtain ⟨lt', cs⟩ := t
    simp only at e1 e3; subst e1
    have h4 := h2 b _ s' lt' cs e3 (by simp)
    simp only [e2]
    exact h4.upd

theorem Sim.size {γ : Type} {f' : Flat κ ε → M (Flat κ ε) γ} {g' : Nat → M σ γ} (hC : Refines C cap sw rep)
    (h : ∀ t, Sim rep i (f' t) (g' t.cs.length)) : Sim rep i (M.get >>= f') (C.size i >>= g') := by
  intro y s lt xs hr hy
  have := h ⟨lt, xs⟩ y s lt xs hr hy
  simpa only [M.bind_apply, M.get_apply, hC.size hr hy] using this

theorem Sim.deref (hC : Refines C cap sw rep) (p : Nat) : Sim (κ := κ) rep i (deref p) (C.get i p) := by
  intro y s lt xs hr hy
  by_cases hp : p < xs.length
  · simp only [Flat.deref, M.load, List.getElem?_eq_getElem hp]
    refine ⟨rfl, s, hC.get hr hy hp, ?_⟩
    rw [upd_same hy]; exact hr
  · simp only [Flat.deref, M.load, List.getElem?_eq_none (Nat.le_of_not_lt hp)]; trivial

theorem Sim.ite {γ : Type} {p : Prop} [Decidable p] {f f' : M (Flat κ ε) γ} {g g' : M σ γ} (h : p → Sim rep i f g)
    (h' : ¬ p → Sim rep i f' g') : Sim rep i (if p then f else f') (if p then g else g') := by
  split
  · exact h ‹_›
  · exact h' ‹_›

/-- a read-only function -/
theorem Sim.load {γ : Type} {f : List ε → Option γ} {g : M σ γ}
    (h : ∀ y s xs b, rep y s → y i = some xs → f xs = some b → g s = .ok b s) :
    Sim (κ := κ) rep i (.load fun t => f t.cs) g := by
  intro y s lt xs hr hy
  simp only [M.load]
  cases hf : f xs with
  | none => trivial
  | some b =>
    refine ⟨rfl, s, h y s xs b hr hy hf, ?_⟩
    rw [upd_same hy]; exact hr

theorem boundLoop_run (hC : Refines C cap sw rep) {y : Conts ε} {s : σ} {xs : List ε} (hr : rep y s) (hy : y i = some xs)
    (p : ε → Bool) : ∀ (len first c a b : Nat), Flat.boundLoop p xs first len c = some (a, b) →
    boundLoop C i p first len s = .ok a s := by
  intro len
  induction len using Nat.strongRecOn with
  | ind len ih =>
    intro first c a b h
    unfold Flat.boundLoop at h
    unfold boundLoop
    by_cases h0 : len = 0
    · simp only [h0, if_true, Option.some.injEq, Prod.mk.injEq] at h ⊢
      obtain ⟨rfl, rfl⟩ := h
      rfl
    · simp only [h0, if_false] at h ⊢
      split at h
      · simp at h
      · rename_i e he
        obtain ⟨hl, he⟩ := List.getElem?_eq_some_iff.mp he
        simp only [M.bind_apply, hC.get hr hy hl, he]
        split at h
        · rename_i hp; rw [if_pos hp]
          exact ih _ (by omega) _ _ _ _ h
        · rename_i hp; rw [if_neg hp]
          exact ih _ (by omega) _ _ _ _ h

theorem equalLoop_run (hC : Refines C cap sw rep) {y : Conts ε} {s : σ} {xs : List ε} (hr : rep y s) (hy : y i = some xs)
    (k : Probe κ) : ∀ (len first c : Nat) (a : Nat × Nat) (b : Nat), Flat.equalLoop key k xs first len c = some (a, b) →
    equalLoop key C i k first len s = .ok a s := by
  intro len
  induction len using Nat.strongRecOn with
  | ind len ih =>
    intro first c a b h
    unfold Flat.equalLoop at h
    unfold equalLoop
    by_cases h0 : len = 0
    · simp only [h0, if_true, Option.some.injEq, Prod.mk.injEq] at h ⊢
      obtain ⟨rfl, rfl⟩ := h
      rfl
    · simp only [h0, if_false] at h ⊢
      split at h
      · simp at h
      · rename_i e he
        obtain ⟨hl, he⟩ := List.getElem?_eq_some_iff.mp he
        simp only [M.bind_apply, hC.get hr hy hl, he]
        split at h
        · rename_i hp; rw [if_pos hp]
          exact ih _ (by omega) _ _ _ _ h
        · rename_i hp; rw [if_neg hp]
          split at h
          · rename_i hp; rw [if_pos hp]
            exact ih _ (by omega) _ _ _ _ h
          · rename_i hp; rw [if_neg hp]
            simp only [Option.bind_eq_bind, Option.bind_eq_some_iff, Option.some.injEq, Prod.mk.injEq] at h
            obtain ⟨⟨l, c1⟩, e1, ⟨r, c2⟩, e2, rfl, _⟩ := h
            simp only [M.bind_apply, boundLoop_run hC hr hy _ _ _ _ _ _ e1, boundLoop_run hC hr hy _ _ _ _ _ _ e2,
              M.pure_apply]

theorem lowerBound_run (hC : Refines C cap sw rep) {y : Conts ε} {s : σ} {xs : List ε} (hr : rep y s) (hy : y i = some xs)
    {k : Probe κ} {a b : Nat} (h : Flat.lowerBoundC key k xs = some (a, b)) : lowerBound key C i k s = .ok a s := by
  simp only [lowerBound, M.bind_apply, hC.size hr hy]
  exact boundLoop_run hC hr hy _ _ _ _ _ _ h

theorem Sim.lowerBound (hC : Refines C cap sw rep) (k : Probe κ) :
    Sim rep i (Flat.lowerBound key k) (lowerBound key C i k) := by
  refine Sim.load (f := fun xs => (Flat.lowerBoundC key k xs).map Prod.fst) fun y s xs b hr hy h => ?_
  simp only [Option.map_eq_some_iff] at h
  obtain ⟨⟨a, c⟩, h, rfl⟩ := h
  exact lowerBound_run hC hr hy h

theorem Sim.upperBound (hC : Refines C cap sw rep) (k : Probe κ) :
    Sim rep i (Flat.upperBound key k) (upperBound key C i k) := by
  refine Sim.load (f := fun xs => (Flat.upperBoundC key k xs).map Prod.fst) fun y s xs b hr hy h => ?_
  simp only [Option.map_eq_some_iff] at h
  obtain ⟨⟨a, c⟩, h, rfl⟩ := h
  simp only [FlatOver.upperBound, M.bind_apply, hC.size hr hy]
  exact boundLoop_run hC hr hy _ _ _ _ _ _ h

theorem Sim.equalRange (hC : Refines C cap sw rep) (k : Probe κ) :
    Sim rep i (Flat.equalRange key k) (equalRange key C i k) := by
  refine Sim.load (f := fun xs => (Flat.equalRangeC key k xs).map Prod.fst) fun y s xs b hr hy h => ?_
  simp only [Option.map_eq_some_iff] at h
  obtain ⟨⟨a, c⟩, h, rfl⟩ := h
  simp only [FlatOver.equalRange, M.bind_apply, hC.size hr hy]
  exact equalLoop_run hC hr hy _ _ _ _ _ _ h

theorem Sim.find (hC : Refines C cap sw rep) (k : Probe κ) :
    Sim rep i (Flat.find key k) (find key C i k) := by
  refine Sim.load (f := fun xs => (Flat.findC key k xs).map Prod.fst) fun y s xs b hr hy h => ?_
  simp only [Option.map_eq_some_iff] at h
  obtain ⟨⟨a, c⟩, h, rfl⟩ := h
  simp only [findC, Option.bind_eq_bind, Option.bind_eq_some_iff] at h
  obtain ⟨⟨j, c'⟩, h1, h2⟩ := h
  simp only [FlatOver.find, M.bind_apply, lowerBound_run hC hr hy h1, hC.size hr hy]
  split at h2
  · rename_i hj
    rw [if_pos hj]
    simp only [Option.bind_eq_some_iff] at h2
    obtain ⟨e, he, h2⟩ := h2
    obtain ⟨hl, he⟩ := List.getElem?_eq_some_iff.mp he
    simp only [M.bind_apply, hC.get hr hy hl, he]
    split at h2 <;> rename_i hp <;> simp only [Option.some.injEq, Prod.mk.injEq] at h2 <;> obtain ⟨rfl, _⟩ := h2
    · rw [if_pos hp]; rfl
    · rw [if_neg hp]; exact hC.size hr hy
  · rename_i hj
    rw [if_neg hj]
    simp only [Option.some.injEq, Prod.mk.injEq] at h2; obtain ⟨rfl, _⟩ := h2
    exact hC.size hr hy

theorem Sim.count (hC : Refines C cap sw rep) (k : Probe κ) : Sim rep i (Flat.count key k) (count key C i k) :=
  Sim.bind (Sim.find hC k) fun _ => Sim.size hC fun _ => Sim.pure _

/-- below `xs.length`, so that an iterator is into the container -/
theorem Sim.emplaceAt (hC : Refines C cap sw rep) (p : Nat) (e : ε) {y : Conts ε} {s : σ} {lt : κ → κ → Bool} {xs : List ε}
    (hr : rep y s) (hy : y i = some xs) (hp : p ≤ xs.length) :
    Simulates rep i y lt (Flat.emplace cap p e ⟨lt, xs⟩) (C.emplace i p e s) := by
  simp only [Flat.emplace, M.bind_apply, M.get_apply]
  by_cases hc : cap = some xs.length
  · rw [if_pos hc]
    obtain ⟨s', e1, e2⟩ := hC.emplace_full e hr hy hp hc
    refine ⟨rfl, s', e1, ?_⟩
    simp only; rw [upd_same hy]; exact e2
  · rw [if_neg hc]
    obtain ⟨s', e1, e2⟩ := hC.emplace e hr hy hp hc
    exact ⟨rfl, s', e1, e2⟩

theorem boundLoop_le {p : ε → Bool} {xs : List ε} : ∀ (len first c a b : Nat),
    Flat.boundLoop p xs first len c = some (a, b) → a ≤ first + len := by
  intro len
  induction len using Nat.strongRecOn with
  | ind len ih =>
    intro first c a b h
    unfold Flat.boundLoop at h
    by_cases h0 : len = 0
    · simp only [h0, if_true, Option.some.injEq, Prod.mk.injEq] at h
      omega
    · simp only [h0, if_false] at h
      split at h
      · simp at h
      · split at h
        · have := ih _ (by omega) _ _ _ _ h; omega
        · have := ih _ (by omega) _ _ _ _ h; omega

/-- continuing after `lower_bound` and `size` -/
theorem Sim.afterLower {γ : Type} {f' : Nat → Flat κ ε → M (Flat κ ε) γ} {g' : Nat → Nat → M σ γ} (hC : Refines C cap sw rep)
    (k : Probe κ)
    (h : ∀ y s lt xs j, rep y s → y i = some xs → j ≤ xs.length →
      Simulates rep i y lt (f' j ⟨lt, xs⟩ ⟨lt, xs⟩) (g' j xs.length s)) :
    Sim rep i (do let j ← Flat.lowerBound key k; let t ← M.get; f' j t)
      (do let j ← FlatOver.lowerBound key C i k; let n ← C.size i; g' j n) := by
  intro y s lt xs hr hy
  simp only [M.bind_apply, Flat.lowerBound, M.load]
  cases hl : lowerBoundC key k xs with
  | none => trivial
  | some p =>
    obtain ⟨j, c⟩ := p
    simp only [Option.map_some, M.get_apply, lowerBound_run hC hr hy hl, hC.size hr hy]
    refine h y s lt xs j hr hy ?_
    have := boundLoop_le _ _ _ _ _ hl
    omega

theorem Sim.insert (hC : Refines C cap sw rep) (k : Probe κ) (e : ε) :
    Sim rep i (Flat.insert key cap k e) (insert key C i k e) := by
  refine Sim.afterLower hC k fun y s lt xs j hr hy hj => ?_
  have hE := Sim.emplaceAt hC j e (lt := lt) hr hy hj
  have h2 : ∀ {γ : Type} (q : Nat → γ), Simulates rep i y lt
      ((Flat.emplace cap j e >>= fun j => Pure.pure (q j) : M (Flat κ ε) γ) ⟨lt, xs⟩)
      ((C.emplace i j e >>= fun j => Pure.pure (q j) : M σ γ) s) := by
    intro γ q
    simp only [M.bind_apply]
    revert hE
    cases Flat.emplace cap j e (⟨lt, xs⟩ : Flat κ ε) with
    | ub => exact fun _ => trivial
    | ok b t => rintro ⟨h1, s', h2, h3⟩; exact ⟨h1, s', by rw [h2]; rfl, h3⟩
    | throw e' t => rintro ⟨h1, s', h2, h3⟩; exact ⟨h1, s', by rw [h2], h3⟩
  by_cases hn : j ≠ xs.length
  · have hl : j < xs.length := by omega
    simp only [ne_eq, hn, not_false_eq_true, if_true, M.bind_apply, Flat.deref, M.load, List.getElem?_eq_getElem hl,
      hC.get hr hy hl]
    by_cases hp : (!k.above (key xs[j])) = true
    · simp only [hp, if_true, M.pure_apply]
      exact ⟨rfl, s, rfl, by rw [upd_same hy]; exact hr⟩
    · simp only [hp]
      exact h2 _
  · simp only [hn, if_false]
    exact h2 _

theorem Sim.index (hC : Refines C cap sw rep) (k : Probe κ) (e : ε) :
    Sim rep i (Flat.index key cap k e) (index key C i k e) := by
  refine Sim.afterLower hC k fun y s lt xs j hr hy hj => ?_
  have hE := Sim.emplaceAt hC j e (lt := lt) hr hy hj
  by_cases hn : j ≠ xs.length
  · have hl : j < xs.length := by omega
    simp only [ne_eq, hn, not_false_eq_true, if_true, M.bind_apply, Flat.deref, M.load, List.getElem?_eq_getElem hl,
      hC.get hr hy hl]
    by_cases hp : (!k.above (key xs[j])) = true
    · simp only [hp, if_true, M.pure_apply]
      exact ⟨rfl, s, rfl, by rw [upd_same hy]; exact hr⟩
    · simp only [hp, Bool.false_eq_true, if_false]
      exact hE
  · simp only [hn, if_false]
    exact hE

theorem Sim.at_ (hC : Refines C cap sw rep) (k : Probe κ) : Sim rep i (Flat.at_ key k) (at_ key C i k) := by
  refine Sim.bind (Sim.lowerBound hC k) fun j => Sim.size hC fun t => Sim.ite (fun _ => Sim.raise _) fun _ => ?_
  exact Sim.bind (Sim.deref hC j) fun x => Sim.ite (fun _ => Sim.raise _) fun _ => Sim.pure _

theorem Sim.eraseAt (hC : Refines C cap sw rep) (j : Nat) : Sim (κ := κ) rep i (Flat.eraseAt j) (C.erase i j) := by
  intro y s lt xs hr hy
  simp only [Flat.eraseAt, M.bind_apply, M.get_apply]
  by_cases hj : j < xs.length
  · simp only [hj, if_true, M.bind_apply, M.set_apply, M.pure_apply]
    obtain ⟨s', h1, h2⟩ := hC.erase hr hy hj
    exact ⟨rfl, s', h1, h2⟩
  · simp only [hj, if_false, M.undef_apply]; trivial

theorem Sim.eraseKey (hC : Refines C cap sw rep) (k : Probe κ) : Sim rep i (Flat.eraseKey key k) (eraseKey key C i k) :=
  Sim.bind (Sim.find hC k) fun _ => Sim.size hC fun _ => Sim.ite (fun _ => Sim.pure _) fun _ =>
    Sim.bind (Sim.eraseAt hC _) fun _ => Sim.pure _

theorem Sim.update (hC : Refines C cap sw rep) (j : Nat) (f : ε → ε) :
    Sim (κ := κ) rep i (Flat.update j f) (update C i j f) := by
  intro y s lt xs hr hy
  simp only [Flat.update, FlatOver.update, M.bind_apply, Flat.deref, M.load]
  by_cases hj : j < xs.length
  · simp only [List.getElem?_eq_getElem hj, M.modify_apply, hC.get hr hy hj]
    obtain ⟨s', h1, h2⟩ := hC.set (f xs[j]) hr hy hj
    exact ⟨rfl, s', h1, h2⟩
  · simp only [List.getElem?_eq_none (Nat.le_of_not_lt hj)]; trivial

theorem Sim.clear (hC : Refines C cap sw rep) : Sim (κ := κ) rep i Flat.clear (C.clear i) := by
  intro y s lt xs hr hy
  obtain ⟨s', h1, h2⟩ := hC.clear hr hy
  exact ⟨rfl, s', h1, h2⟩

theorem Sim.exec (hC : Refines C cap sw rep) (op : Op κ ε) : Sim rep i (Flat.exec key cap op) (exec key C i op) := by
  cases op with
  | insert k e => exact Sim.bind (Sim.insert hC k e) fun _ => Sim.pure _
  | index k e => exact Sim.bind (Sim.index hC k e) fun _ => Sim.bind (Sim.deref hC _) fun _ => Sim.pure _
  | at_ k => exact Sim.bind (Sim.at_ hC k) fun _ => Sim.bind (Sim.deref hC _) fun _ => Sim.pure _
  | eraseKey k => exact Sim.bind (Sim.eraseKey hC k) fun _ => Sim.pure _
  | eraseAt j => exact Sim.bind (Sim.eraseAt hC j) fun _ => Sim.pure _
  | find k => exact Sim.bind (Sim.find hC k) fun _ => Sim.pure _
  | count k => exact Sim.bind (Sim.count hC k) fun _ => Sim.pure _
  | lowerBound k => exact Sim.bind (Sim.lowerBound hC k) fun _ => Sim.pure _
  | upperBound k => exact Sim.bind (Sim.upperBound hC k) fun _ => Sim.pure _
  | equalRange k => exact Sim.bind (Sim.equalRange hC k) fun _ => Sim.pure _
  | get j => exact Sim.bind (Sim.deref hC j) fun _ => Sim.pure _
  | update j f => exact Sim.bind (Sim.update hC j f) fun _ => Sim.pure _
  | size => exact Sim.size hC fun _ => Sim.pure _
  | clear => exact Sim.bind (Sim.clear hC) fun _ => Sim.pure _

/-! ### Construction -/

theorem sortInto_run (hC : Refines C cap sw rep) : ∀ (es : List ε) (p : Nat) (xs : List ε) {y : Conts ε} {s : σ}, rep y s →
    y i = some xs → p + es.length = xs.length →
    ∃ s', sortInto C i p es s = .ok () s' ∧ rep (Function.update y i (some (xs.take p ++ es))) s' := by
  intro es
  induction es with
  | nil =>
    intro p xs y s hr hy hp
    refine ⟨s, rfl, ?_⟩
    rw [List.take_of_length_le (by simp at hp; omega), List.append_nil, upd_same hy]; exact hr
  | cons e es ih =>
    intro p xs y s hr hy hp
    simp only [List.length_cons] at hp
    obtain ⟨s1, h1, h2⟩ := hC.set (p := p) e hr hy (by omega)
    obtain ⟨s2, h3, h4⟩ := ih (p+1) (xs.set p e) h2 (by simp) (by simp; omega)
    refine ⟨s2, by simp only [sortInto, M.bind_apply, h1, h3], ?_⟩
    rw [Function.update_idem] at h4
    have : (xs.set p e).take (p+1) ++ es = xs.take p ++ e :: es := by
      rw [List.take_add_one, List.getElem?_set_self (by omega), List.take_set_of_le (Nat.le_refl _)]
      simp
    rw [this] at h4; exact h4

theorem adjacentFind_run (hC : Refines C cap sw rep) (eq : ε → ε → Bool) : ∀ (k p : Nat) (xs : List ε) {y : Conts ε} {s : σ},
    rep y s → y i = some xs → p + k + 1 = xs.length →
    (adjacentFind C i eq p k s = .ok xs.length s ∧ ∀ x, xs[p]? = some x → Flat.uniqueLoop eq x (xs.drop (p+1)) = xs.drop p) ∨
    ∃ q, p ≤ q ∧ adjacentFind C i eq p k s = .ok q s ∧ ∃ h : q + 1 < xs.length, eq xs[q] xs[q+1] = true ∧
      ∀ x, xs[p]? = some x → Flat.uniqueLoop eq x (xs.drop (p+1)) = (xs.take q).drop p ++ Flat.uniqueLoop eq xs[q] (xs.drop (q+1)) := by
  intro k
  induction k with
  | zero =>
    intro p xs y s hr hy hp
    left
    refine ⟨by simp only [adjacentFind, M.pure_apply]; congr 1, ?_⟩
    intro x hx
    obtain ⟨hl, rfl⟩ := List.getElem?_eq_some_iff.mp hx
    rw [List.drop_of_length_le (by omega), List.drop_eq_getElem_cons hl, List.drop_of_length_le (by omega)]
    rfl
  | succ k ih =>
    intro p xs y s hr hy hp
    have h0 : p < xs.length := by omega
    have h1 : p + 1 < xs.length := by omega
    simp only [adjacentFind, M.bind_apply, hC.get hr hy h0, hC.get hr hy h1]
    by_cases he : eq xs[p] xs[p+1] = true
    · right
      refine ⟨p, Nat.le_refl _, by simp only [he, if_true, M.pure_apply], h1, he, ?_⟩
      intro x hx
      obtain ⟨_, rfl⟩ := List.getElem?_eq_some_iff.mp hx
      simp
    · simp only [he]
      have hstep : ∀ x, xs[p]? = some x → Flat.uniqueLoop eq x (xs.drop (p+1)) = x :: Flat.uniqueLoop eq xs[p+1] (xs.drop (p+1+1)) := by
        intro x hx
        obtain ⟨_, rfl⟩ := List.getElem?_eq_some_iff.mp hx
        rw [List.drop_eq_getElem_cons h1]
        simp only [Flat.uniqueLoop, he]
        rfl
      rcases ih (p+1) xs hr hy (by omega) with ⟨e1, e2⟩ | ⟨q, hq, e1, hl, e3, e4⟩
      · left
        refine ⟨e1, ?_⟩
        intro x hx
        rw [hstep x hx, e2 _ (List.getElem?_eq_getElem h1)]
        obtain ⟨_, rfl⟩ := List.getElem?_eq_some_iff.mp hx
        exact (List.drop_eq_getElem_cons h0).symm
      · right
        refine ⟨q, by omega, e1, hl, e3, ?_⟩
        intro x hx
        rw [hstep x hx, e4 _ (List.getElem?_eq_getElem h1)]
        obtain ⟨_, rfl⟩ := List.getElem?_eq_some_iff.mp hx
        have : p < (xs.take q).length := by simp; omega
        rw [List.drop_eq_getElem_cons this, List.getElem_take]
        rfl

theorem uniqueLoop_run (hC : Refines C cap sw rep) (eq : ε → ε → Bool) : ∀ (k dest first : Nat) (xs : List ε) {y : Conts ε}
    {s : σ}, rep y s → y i = some xs → first + k = xs.length → dest + 1 < first → (hd : dest < xs.length) →
    ∃ s' e xs', uniqueLoop C i eq dest first k s = .ok e s' ∧ rep (Function.update y i (some xs')) s' ∧
      xs'.length = xs.length ∧ e ≤ xs.length ∧
      xs'.take e = xs.take dest ++ Flat.uniqueLoop eq xs[dest] (xs.drop first) := by
  intro k
  induction k with
  | zero =>
    intro dest first xs y s hr hy hf hd1 hd
    refine ⟨s, dest + 1, xs, rfl, by rw [upd_same hy]; exact hr, rfl, by omega, ?_⟩
    rw [List.drop_of_length_le (show xs.length ≤ first by omega), Flat.uniqueLoop, List.take_add_one,
      List.getElem?_eq_getElem hd]
    rfl
  | succ k ih =>
    intro dest first xs y s hr hy hf hd1 hd
    have h0 : first < xs.length := by omega
    simp only [uniqueLoop, M.bind_apply, hC.get hr hy hd, hC.get hr hy h0]
    rw [List.drop_eq_getElem_cons h0, Flat.uniqueLoop]
    by_cases he : eq xs[dest] xs[first] = true
    · simp only [he, if_true]
      exact ih dest (first+1) xs hr hy (by omega) (by omega) hd
    · simp only [he]
      obtain ⟨s1, w, h1, h2⟩ := hC.moveElem (p := dest+1) (q := first) hr hy (by omega) h0 (by omega)
      obtain ⟨s2, e, xs', h3, h4, h5, h6, h7⟩ := ih (dest+1) (first+1) ((xs.set (dest+1) xs[first]).set first w) h2 (by simp)
        (by simp; omega) (by omega) (by simp; omega)
      rw [Function.update_idem] at h4
      refine ⟨s2, e, xs', by simp only [Bool.false_eq_true, if_false, M.bind_apply, h1, h3], h4, by simpa using h5,
        by simpa using h6, ?_⟩
      rw [h7]
      have t1 : ((xs.set (dest+1) xs[first]).set first w).take (dest+1) = xs.take dest ++ [xs[dest]] := by
        rw [List.take_set_of_le (by omega), List.take_set_of_le (by omega), List.take_add_one, List.getElem?_eq_getElem hd]
        rfl
      have t2 : ((xs.set (dest+1) xs[first]).set first w)[dest+1]'(by simp; omega) = xs[first] := by
        rw [List.getElem_set_of_ne (by omega), List.getElem_set_self]
      have t3 : ((xs.set (dest+1) xs[first]).set first w).drop (first+1) = xs.drop (first+1) := by
        rw [List.drop_set_of_lt (by omega), List.drop_set_of_lt (by omega)]
      rw [t1, t2, t3]
      simp only [Bool.false_eq_true, if_false, List.append_assoc, List.singleton_append]

theorem unique_run (hC : Refines C cap sw rep) (eq : ε → ε → Bool) {xs : List ε} {y : Conts ε} {s : σ} (hr : rep y s)
    (hy : y i = some xs) : ∃ s' e xs', unique C i eq s = .ok e s' ∧ rep (Function.update y i (some xs')) s' ∧
      xs'.length = xs.length ∧ e ≤ xs.length ∧ xs'.take e = Flat.unique eq xs := by
  simp only [unique, M.bind_apply, hC.size hr hy]
  by_cases h0 : xs.length = 0
  · rw [List.length_eq_zero_iff] at h0; subst h0
    exact ⟨s, 0, [], rfl, by rw [upd_same hy]; exact hr, rfl, Nat.le_refl _, rfl⟩
  · simp only [h0, if_false, M.bind_apply]
    have hl : 0 < xs.length := by omega
    have hu : Flat.unique eq xs = Flat.uniqueLoop eq xs[0] (xs.drop (0+1)) := by
      cases xs with
      | nil => simp at h0
      | cons x xs => rfl
    rcases adjacentFind_run hC eq (xs.length - 1) 0 xs hr hy (by omega) with ⟨e1, e2⟩ | ⟨q, hq, e1, hl', e3, e4⟩
    · simp only [e1, if_true, M.pure_apply]
      refine ⟨s, xs.length, xs, rfl, by rw [upd_same hy]; exact hr, rfl, Nat.le_refl _, ?_⟩
      rw [hu, e2 _ (List.getElem?_eq_getElem hl)]
      simp
    · simp only [e1]
      rw [if_neg (by omega)]
      obtain ⟨s2, e, xs', h3, h4, h5, h6, h7⟩ := uniqueLoop_run hC eq (xs.length - (q+2)) q (q+2) xs hr hy (by omega) (by omega)
        (by omega)
      refine ⟨s2, e, xs', h3, h4, h5, h6, ?_⟩
      rw [h7, hu, e4 _ (List.getElem?_eq_getElem hl), List.drop_eq_getElem_cons hl', Flat.uniqueLoop]
      simp [e3]

theorem ofContainer_run (hC : Refines C cap sw rep) (lt : κ → κ → Bool) {c t : Nat} (hct : c ≠ t) {ys sorted : List ε}
    (hl : sorted.length = ys.length) {y : Conts ε} {s : σ} (hr : rep y s) (hc : y c = none) (ht : y t = none)
    (hf : Spec.fits cap ys.length = true) :
    ∃ s', ofContainer key C lt c t ys sorted s = .ok () s' ∧
      rep (Function.update y c (some (Flat.ofContainer key lt sorted).cs)) s' := by
  obtain ⟨s1, a1, b1⟩ := hC.ctorRange hr ht hf
  obtain ⟨s2, a2, b2⟩ := hC.moveCtor (i := c) (j := t) (xs := ys) b1 (by rw [Function.update_of_ne hct]; exact hc) (by simp)
  rw [Function.update_comm hct, Function.update_idem] at b2
  obtain ⟨s3, a3, b3⟩ := sortInto_run hC (i := c) sorted 0 ys b2 (by simp) (by simp [hl])
  rw [Function.update_idem] at b3
  obtain ⟨s4, e, xs', a4, b4, h5, h6, h7⟩ := unique_run hC (i := c)
    (fun a b => !lt (key a) (key b) && !lt (key b) (key a)) (xs := ys.take 0 ++ sorted) b3 (by simp)
  rw [Function.update_idem] at b4
  have a5 := hC.size (i := c) (xs := xs') b4 (by simp)
  obtain ⟨s6, a6, b6⟩ := hC.eraseToEnd (i := c) (xs := xs') (p := e) b4 (by simp) (by omega)
  rw [Function.update_idem] at b6
  obtain ⟨s7, a7, b7⟩ := hC.dtor (i := t) (xs := []) b6 (by simp [Function.update_of_ne (Ne.symm hct)])
  refine ⟨s7, by simp only [ofContainer, M.bind_apply, a1, a2, a3, a4, a5, a6, a7], ?_⟩
  rw [Function.update_comm hct, Function.update_idem, h7, List.take_zero, List.nil_append] at b7
  rw [← ht, Function.update_eq_self] at b7
  exact b7

/-! ### Several maps -/

/-- the containers of the maps of `st` -/
def conts (st : Flat.Store κ ε) : Conts ε := fun n => if n % 2 = 0 then (st (n / 2)).map Flat.cs else none

theorem conts_even (st : Flat.Store κ ε) (i : Nat) : conts st (2 * i) = (st i).map Flat.cs := by
  simp [conts]
theorem conts_odd (st : Flat.Store κ ε) (i : Nat) : conts st (2 * i + 1) = none := by
  simp [conts]

theorem conts_update (st : Flat.Store κ ε) (i : Nat) (v : Option (Flat κ ε)) :
    conts (Function.update st i v) = Function.update (conts st) (2 * i) (v.map Flat.cs) := by
  funext n
  by_cases h : n = 2 * i
  · subst h; simp [conts]
  · rw [Function.update_of_ne h]
    simp only [conts]
    split
    · rw [Function.update_of_ne (by omega)]
    · rfl

/-- the memory holds the maps of `st` -/
structure MRel (rep : Conts ε → σ → Prop) (st : Flat.Store κ ε) (m : Mem σ κ) : Prop where
  lt : ∀ i, m.lt i = (st i).map Flat.lt
  mem : rep (conts st) m.mem

theorem MRel.put {st : Flat.Store κ ε} {m : Mem σ κ} (h : MRel rep st m) {i : Nat} {v : Option (Flat κ ε)} {s : σ}
    {l : Option (κ → κ → Bool)} (hl : l = v.map Flat.lt)
    (hs : rep (Function.update (conts st) (2 * i) (v.map Flat.cs)) s) :
    MRel rep (Function.update st i v) ⟨s, Function.update m.lt i l⟩ := by
  refine ⟨?_, by rw [conts_update]; exact hs⟩
  intro j
  by_cases hj : j = i
  · subst hj; simp [hl]
  · simp [Function.update_of_ne hj, h.lt]

variable [DecidableEq ε]

theorem mcall_sim (hC : Refines C cap sw rep) {st st' : Flat.Store κ ε} {y : Spec.Sys κ ε} {m : Mem σ κ} {op : MOp κ ε}
    {r : Reply ε} (hm : MRel rep st m) (hR : Rel key st y) (hp : Spec.MPre key op y)
    (hsw : sw = true ∨ ∀ i j, op ≠ .swap i j)
    (h : Flat.mcall key cap op st = some (r, st')) : ∃ m', mcall key C op m = some (r, m') ∧ MRel rep st' m' := by
  have hnone : ∀ {i}, y i = none → conts st (2 * i) = none := by
    intro i hi; rw [conts_even, hR.none hi]; rfl
  have hsome : ∀ {i}, (y i).isSome = true → ∃ v, st i = some v ∧ conts st (2 * i) = some v.cs := by
    intro i hi
    obtain ⟨a, ha⟩ := Option.isSome_iff_exists.mp hi
    obtain ⟨xs, hx, _⟩ := hR.some ha
    exact ⟨_, hx, by rw [conts_even, hx]; rfl⟩
  have h2 : ∀ {a b : Nat}, a ≠ b → 2 * a ≠ 2 * b := by intro a b h; omega
  cases op with
  | new i lt =>
    simp only [Flat.mcall, Option.some.injEq, Prod.mk.injEq] at h; obtain ⟨rfl, rfl⟩ := h
    obtain ⟨s', e1, e2⟩ := hC.ctor hm.mem (hnone hp.1)
    exact ⟨_, by simp only [mcall, on, e1]; rfl, hm.put rfl e2⟩
  | build i lt ys sorted =>
    obtain ⟨hi, _, hperm, _⟩ := hp
    simp only [Flat.mcall, tooMany_eq] at h
    cases hf : Spec.fits cap ys.length with
    | true =>
      simp only [hf, Bool.not_true, Bool.false_eq_true, if_false, Option.some.injEq, Prod.mk.injEq] at h
      obtain ⟨rfl, rfl⟩ := h
      obtain ⟨s', e1, e2⟩ := ofContainer_run (key := key) hC lt (c := 2 * i) (t := 2 * i + 1) (by omega) hperm.length_eq
        hm.mem (hnone hi) (conts_odd _ _) hf
      exact ⟨_, by simp only [mcall, on, e1]; rfl, hm.put rfl e2⟩
    | false =>
      simp only [hf, Bool.not_false, if_true, Option.some.injEq, Prod.mk.injEq] at h
      obtain ⟨rfl, rfl⟩ := h
      obtain ⟨s', e1, e2⟩ := hC.ctorRange_full (i := 2 * i + 1) hm.mem (conts_odd _ _) hf
      exact ⟨⟨s', m.lt⟩, by simp only [mcall, on, ofContainer, M.bind_apply, e1], ⟨hm.lt, e2⟩⟩
  | copy i src =>
    obtain ⟨v, hv, hv'⟩ := hsome hp.2
    simp only [Flat.mcall, hv, Option.bind_eq_bind, Option.bind_some, Option.some.injEq, Prod.mk.injEq] at h
    obtain ⟨rfl, rfl⟩ := h
    obtain ⟨s', e1, e2⟩ := hC.copyCtor hm.mem (hnone hp.1) hv'
    exact ⟨_, by simp only [mcall, on, e1]; rfl, hm.put (by rw [hm.lt, hv]) e2⟩
  | assign i src =>
    obtain ⟨v, hv, hv'⟩ := hsome hp.2
    obtain ⟨w, hw, hw'⟩ := hsome hp.1
    simp only [Flat.mcall, hv, Option.bind_eq_bind, Option.bind_some, Option.some.injEq, Prod.mk.injEq] at h
    obtain ⟨rfl, rfl⟩ := h
    obtain ⟨s', e1, e2⟩ := hC.copyAssign hm.mem hw' hv'
    exact ⟨_, by simp only [mcall, on, e1]; rfl, hm.put (by rw [hm.lt, hv]) e2⟩
  | move i src =>
    obtain ⟨v, hv, hv'⟩ := hsome hp.2
    simp only [Flat.mcall, hv, Option.bind_eq_bind, Option.bind_some, Option.some.injEq, Prod.mk.injEq] at h
    obtain ⟨rfl, rfl⟩ := h
    obtain ⟨s', e1, e2⟩ := hC.moveCtor hm.mem (hnone hp.1) hv'
    refine ⟨_, by simp only [mcall, on, e1]; rfl, ?_, ?_⟩
    · intro j
      have hne : src ≠ i := by
        rintro rfl; have := hp.2; rw [hp.1] at this; simp at this
      by_cases hj : j = src
      · subst hj; simp [hm.lt, hv, Function.update_of_ne hne]
      · by_cases hj' : j = i
        · subst hj'; simp [hm.lt, hv, Function.update_of_ne hj]
        · simp [hm.lt, Function.update_of_ne hj, Function.update_of_ne hj']
    · rw [conts_update, conts_update]; exact e2
  | moveAssign i src =>
    obtain ⟨v, hv, hv'⟩ := hsome hp.2.1
    obtain ⟨w, hw, hw'⟩ := hsome hp.1
    simp only [Flat.mcall, hv, Option.bind_eq_bind, Option.bind_some, Option.some.injEq, Prod.mk.injEq] at h
    obtain ⟨rfl, rfl⟩ := h
    obtain ⟨s', e1, e2⟩ := hC.moveAssign hm.mem hw' hv' (h2 hp.2.2)
    refine ⟨_, by simp only [mcall, on, e1]; rfl, ?_, ?_⟩
    · intro j
      have hne : src ≠ i := Ne.symm hp.2.2
      by_cases hj : j = src
      · subst hj; simp [hm.lt, hv, Function.update_of_ne hne]
      · by_cases hj' : j = i
        · subst hj'; simp [hm.lt, hv, Function.update_of_ne hj]
        · simp [hm.lt, Function.update_of_ne hj, Function.update_of_ne hj']
    · rw [conts_update, conts_update]; exact e2
  | swap i j =>
    obtain ⟨v, hv, hv'⟩ := hsome hp.1
    obtain ⟨w, hw, hw'⟩ := hsome hp.2
    simp only [Flat.mcall, hv, hw, Option.bind_eq_bind, Option.bind_some, Option.some.injEq, Prod.mk.injEq] at h
    obtain ⟨rfl, rfl⟩ := h
    obtain ⟨s', e1, e2⟩ := hC.swap (hsw.resolve_right fun h => h i j rfl) hm.mem hv' hw'
    refine ⟨_, by simp only [mcall, on, e1]; rfl, ?_, ?_⟩
    · intro k
      by_cases hj : k = j
      · subst hj; simp [hm.lt, hv]
      · by_cases hj' : k = i
        · subst hj'; simp [hm.lt, hw, Function.update_of_ne hj]
        · simp [hm.lt, Function.update_of_ne hj, Function.update_of_ne hj']
    · rw [conts_update, conts_update]; exact e2
  | destroy i =>
    obtain ⟨v, hv, hv'⟩ := hsome hp
    simp only [Flat.mcall, Option.some.injEq, Prod.mk.injEq] at h; obtain ⟨rfl, rfl⟩ := h
    obtain ⟨s', e1, e2⟩ := hC.dtor hm.mem hv'
    exact ⟨_, by simp only [mcall, on, e1]; rfl, hm.put rfl e2⟩
  | eq i j =>
    obtain ⟨a, b, ha, hb, _⟩ := hp
    obtain ⟨v, hv, hv'⟩ := hsome (i := i) (by rw [ha]; rfl)
    obtain ⟨w, hw, hw'⟩ := hsome (i := j) (by rw [hb]; rfl)
    simp only [Flat.mcall, hv, hw, Option.bind_eq_bind, Option.bind_some, Option.some.injEq, Prod.mk.injEq] at h
    obtain ⟨rfl, rfl⟩ := h
    exact ⟨_, by simp only [mcall, on, hC.eq _ hm.mem hv' hw']; rfl, ⟨hm.lt, hm.mem⟩⟩
  | on i op =>
    obtain ⟨a, ha, _⟩ := hp
    obtain ⟨v, hv, hv'⟩ := hsome (i := i) (by rw [ha]; rfl)
    simp only [Flat.mcall, hv, Option.bind_eq_bind, Option.bind_some, Option.bind_eq_some_iff, Option.some.injEq,
      Prod.mk.injEq] at h
    obtain ⟨⟨r', v'⟩, h1, rfl, rfl⟩ := h
    have hS := Sim.exec (key := key) (i := 2 * i) hC op (conts st) m.mem v.lt v.cs hm.mem hv'
    simp only [Flat.call] at h1
    cases he : Flat.exec key cap op v with
    | ub => simp [he] at h1
    | ok b t =>
      simp only [he, Option.some.injEq, Prod.mk.injEq] at h1; obtain ⟨rfl, rfl⟩ := h1
      rw [he] at hS
      obtain ⟨e1, s', e2, e3⟩ := hS
      refine ⟨⟨s', m.lt⟩, by simp only [mcall, on, e2]; rfl, ?_, by rw [conts_update]; exact e3⟩
      intro j
      by_cases hj : j = i
      · subst hj; simp [hm.lt, hv, e1]
      · simp [Function.update_of_ne hj, hm.lt]
    | throw e t =>
      simp only [he, Option.some.injEq, Prod.mk.injEq] at h1; obtain ⟨rfl, rfl⟩ := h1
      rw [he] at hS
      obtain ⟨e1, s', e2, e3⟩ := hS
      refine ⟨⟨s', m.lt⟩, by simp only [mcall, on, e2], ?_, by rw [conts_update]; exact e3⟩
      intro j
      by_cases hj : j = i
      · subst hj; simp [hm.lt, hv, e1]
      · simp [Function.update_of_ne hj, hm.lt]

theorem mrun_sim (hC : Refines C cap sw rep) : ∀ (ops : List (MOp κ ε)) {st : Flat.Store κ ε} {y : Spec.Sys κ ε} {m : Mem σ κ},
    MRel rep st m → Rel key st y → Spec.MPreRun key cap ops y → (sw = true ∨ ∀ i j, .swap i j ∉ ops) →
    ∃ st' m', mrun key C ops m = some ((Spec.mrun key cap ops y).1, m') ∧ MRel rep st' m' ∧
      Rel key st' (Spec.mrun key cap ops y).2 := by
  intro ops
  induction ops with
  | nil => intro st y m hm hR _ _; exact ⟨st, m, rfl, hm, hR⟩
  | cons op ops ih =>
    intro st y m hm hR hp hsw
    obtain ⟨st1, h1, h2⟩ := mcall_rel (cap := cap) hR op hp.1
    obtain ⟨m1, h3, h4⟩ := mcall_sim hC hm hR hp.1
      (hsw.imp id fun h i j e => h i j (by rw [e]; exact List.mem_cons_self ..)) h1
    obtain ⟨st2, m2, h5, h6, h7⟩ := ih h4 h2 hp.2 (hsw.imp id fun h i j hh => h i j (List.mem_cons_of_mem _ hh))
    exact ⟨st2, m2, by simp [mrun, h3, h5, Spec.mrun], h6, h7⟩

end sim
end Itlib.FlatOver
