import Verif.FlatOver.ThrowSpec
import Verif.FlatOver.Lemmas

/-! # Programs with throwing user code against those without (no property statements here) -/
namespace Itlib.FlatOver.T
open Itlib Itlib.Flat M

section clean
variable {σ κ ε α β : Type}

def relift (l : Option Nat) : Res σ α → Res (TMem σ) α
  | .ok a s => .ok a ⟨s, l⟩
  | .throw e s => .throw e ⟨s, l⟩
  | .ub => .ub

/-- from `s`, `f` throws with no effect, or it does what `g` does -/
def Clean (f : M (TMem σ) α) (g : M σ α) (s : σ) : Prop :=
  ∀ l, (l ≠ none ∧ ∃ l', f ⟨s, l⟩ = .throw .user ⟨s, l'⟩) ∨ ∃ l', (l = none → l' = none) ∧ f ⟨s, l⟩ = relift l' (g s)

theorem act_eq (g : M σ α) (t : TMem σ) : act g t = relift t.left (g t.mem) := by
  simp only [act, relift]; cases g t.mem <;> rfl

theorem Clean.act {g : M σ α} {s : σ} : Clean (T.act g) g s := fun l => .inr ⟨l, id, act_eq g _⟩

theorem Clean.pure {a : α} {s : σ} : Clean (pure a) (pure a) s := fun l => .inr ⟨l, id, rfl⟩

theorem Clean.raise {e : Exc} {s : σ} : Clean (M.raise e : M _ α) (M.raise e) s := fun l => .inr ⟨l, id, rfl⟩

theorem Clean.user {b : α} {f : α → M (TMem σ) β} {g : M σ β} {s : σ} (h : Clean (f b) g s) : Clean (T.user b >>= f) g s := by
  intro l
  cases l with
  | none =>
    rcases h none with ⟨h1, _⟩ | ⟨l', h1, h2⟩
    · exact absurd rfl h1
    · exact .inr ⟨l', h1, by simp only [bind_apply, T.user, h2]⟩
  | some n =>
    cases n with
    | zero => exact .inl ⟨by simp, some 0, by simp only [bind_apply, T.user]⟩
    | succ n =>
      rcases h (some n) with ⟨h1, l', h2⟩ | ⟨l', h1, h2⟩
      · exact .inl ⟨by simp, l', by simp only [bind_apply, T.user, h2]⟩
      · exact .inr ⟨l', by simp, by simp only [bind_apply, T.user, h2]⟩

theorem Clean.bind {f : M (TMem σ) α} {g : M σ α} {f' : α → M (TMem σ) β} {g' : α → M σ β} {s : σ} {a : α} (h : Clean f g s)
    (hg : g s = .ok a s) (h' : Clean (f' a) (g' a) s) : Clean (f >>= f') (g >>= g') s := by
  intro l
  rcases h l with ⟨h1, l1, h2⟩ | ⟨l1, h1, h2⟩
  · exact .inl ⟨h1, l1, by simp only [bind_apply, h2]⟩
  · simp only [hg, relift] at h2
    rcases h' l1 with ⟨k1, l2, k2⟩ | ⟨l2, k1, k2⟩
    · exact .inl ⟨fun e => k1 (h1 e), l2, by simp only [bind_apply, h2, k2]⟩
    · exact .inr ⟨l2, fun e => k1 (h1 e), by simp only [bind_apply, h2, hg, k2]⟩

theorem Clean.then {f : M (TMem σ) α} {g : M σ α} {f' : α → M (TMem σ) β} {g' : α → M σ β} {s : σ} (h : Clean f g s)
    (h' : ∀ a, f' a = T.act (g' a)) : Clean (f >>= f') (g >>= g') s := by
  intro l
  rcases h l with ⟨h1, l1, h2⟩ | ⟨l1, h1, h2⟩
  · exact .inl ⟨h1, l1, by simp only [bind_apply, h2]⟩
  · refine .inr ⟨l1, h1, ?_⟩
    simp only [bind_apply, h2]
    cases hg : g s with
    | ok a s' => simp only [relift, h', act_eq]
    | throw => rfl
    | ub => rfl

theorem act_pure (a : α) : (Pure.pure a : M (TMem σ) α) = T.act (Pure.pure a) := rfl

theorem act_bind (f : M σ α) (g : α → M σ β) : (T.act f >>= fun a => T.act (g a)) = T.act (f >>= g) := by
  funext t
  simp only [bind_apply, act_eq]
  cases f t.mem <;> simp [relift]

variable {key : ε → κ} {C : Cont σ ε} {cap : Option Nat} {sw : Bool} {rep : Conts ε → σ → Prop} {i : Nat}
variable {y : Conts ε} {s : σ} {xs : List ε}

theorem boundLoop_clean (hC : Refines C cap sw rep) (hr : rep y s) (hy : y i = some xs) (p : ε → Bool) : ∀ len first,
    first + len ≤ xs.length → (∃ a, a ≤ first + len ∧ FlatOver.boundLoop C i p first len s = .ok a s) ∧
      Clean (boundLoop C i p first len) (FlatOver.boundLoop C i p first len) s := by
  intro len
  induction len using Nat.strongRecOn with
  | ind len ih =>
    intro first hl
    unfold FlatOver.boundLoop boundLoop
    by_cases h0 : len = 0
    · simp only [h0, if_true]
      exact ⟨⟨first, by omega, rfl⟩, Clean.pure⟩
    · simp only [h0, if_false]
      have hg := hC.get hr hy (p := first + len / 2) (by omega)
      obtain ⟨⟨a1, l1, e1⟩, c1⟩ := ih (len - len / 2 - 1) (by omega) (first + len / 2 + 1) (by omega)
      obtain ⟨⟨a2, l2, e2⟩, c2⟩ := ih (len / 2) (by omega) first (by omega)
      refine ⟨?_, Clean.bind Clean.act hg (Clean.user ?_)⟩
      · simp only [bind_apply, hg]
        split
        · exact ⟨a1, by omega, e1⟩
        · exact ⟨a2, by omega, e2⟩
      · split
        · exact c1
        · exact c2

theorem equalLoop_clean (hC : Refines C cap sw rep) (hr : rep y s) (hy : y i = some xs) (k : Probe κ) : ∀ len first,
    first + len ≤ xs.length → Clean (equalLoop key C i k first len) (FlatOver.equalLoop key C i k first len) s := by
  intro len
  induction len using Nat.strongRecOn with
  | ind len ih =>
    intro first hl
    unfold FlatOver.equalLoop equalLoop
    by_cases h0 : len = 0
    · simp only [h0, if_true]
      exact Clean.pure
    · simp only [h0, if_false]
      have hg := hC.get hr hy (p := first + len / 2) (by omega)
      refine Clean.bind Clean.act hg (Clean.user ?_)
      by_cases h1 : k.below (key xs[first + len / 2]) = true
      · simp only [h1, if_true]
        exact ih _ (by omega) _ (by omega)
      · simp only [h1]
        refine Clean.user ?_
        by_cases h2 : k.above (key xs[first + len / 2]) = true
        · simp only [h2, if_true]
          exact ih _ (by omega) _ (by omega)
        · simp only [h2]
          obtain ⟨⟨a1, l1, e1⟩, c1⟩ := boundLoop_clean hC hr hy (fun e => k.below (key e)) (len / 2) first (by omega)
          obtain ⟨⟨a2, l2, e2⟩, c2⟩ := boundLoop_clean hC hr hy (fun e => !k.above (key e)) (len - len / 2 - 1) (first + len / 2 + 1) (by omega)
          exact Clean.bind c1 e1 (Clean.bind c2 e2 Clean.pure)

theorem lowerBound_clean (hC : Refines C cap sw rep) (hr : rep y s) (hy : y i = some xs) (k : Probe κ) :
    (∃ a, a ≤ xs.length ∧ FlatOver.lowerBound key C i k s = .ok a s) ∧ Clean (lowerBound key C i k) (FlatOver.lowerBound key C i k) s := by
  obtain ⟨⟨a, l, e⟩, c⟩ := boundLoop_clean hC hr hy (fun e => k.below (key e)) xs.length 0 (by omega)
  refine ⟨⟨a, by omega, by simp only [FlatOver.lowerBound, bind_apply, hC.size hr hy, e]⟩, Clean.bind Clean.act (hC.size hr hy) c⟩

theorem upperBound_clean (hC : Refines C cap sw rep) (hr : rep y s) (hy : y i = some xs) (k : Probe κ) :
    Clean (upperBound key C i k) (FlatOver.upperBound key C i k) s :=
  Clean.bind Clean.act (hC.size hr hy) (boundLoop_clean hC hr hy (fun e => !k.above (key e)) xs.length 0 (by omega)).2

theorem equalRange_clean (hC : Refines C cap sw rep) (hr : rep y s) (hy : y i = some xs) (k : Probe κ) :
    Clean (equalRange key C i k) (FlatOver.equalRange key C i k) s :=
  Clean.bind Clean.act (hC.size hr hy) (equalLoop_clean hC hr hy k xs.length 0 (by omega))

theorem find_clean (hC : Refines C cap sw rep) (hr : rep y s) (hy : y i = some xs) (k : Probe κ) :
    (∃ a, FlatOver.find key C i k s = .ok a s) ∧ Clean (find key C i k) (FlatOver.find key C i k) s := by
  obtain ⟨⟨a, l, e⟩, c⟩ := lowerBound_clean (key := key) hC hr hy k
  have hs := hC.size hr hy
  constructor
  · simp only [FlatOver.find, bind_apply, e, hs]
    by_cases ha : a = xs.length
    · simp [ha, hs]
    · simp only [ne_eq, ha, not_false_eq_true, if_true, bind_apply, hC.get hr hy (p := a) (by omega)]
      split
      · exact ⟨_, rfl⟩
      · exact ⟨_, hs⟩
  · refine Clean.bind c e (Clean.bind Clean.act hs ?_)
    by_cases ha : a = xs.length
    · simp only [ha, ne_eq, not_true_eq_false, if_false]; exact Clean.act
    · simp only [ne_eq, ha, not_false_eq_true, if_true]
      refine Clean.bind Clean.act (hC.get hr hy (p := a) (by omega)) (Clean.user ?_)
      split
      · exact Clean.pure
      · exact Clean.act

theorem count_clean (hC : Refines C cap sw rep) (hr : rep y s) (hy : y i = some xs) (k : Probe κ) :
    Clean (count key C i k) (FlatOver.count key C i k) s := by
  obtain ⟨⟨a, e⟩, c⟩ := find_clean (key := key) hC hr hy k
  exact Clean.bind c e (Clean.bind Clean.act (hC.size hr hy) Clean.pure)

theorem eraseKey_clean (hC : Refines C cap sw rep) (hr : rep y s) (hy : y i = some xs) (k : Probe κ) :
    Clean (eraseKey key C i k) (FlatOver.eraseKey key C i k) s := by
  obtain ⟨⟨a, e⟩, c⟩ := find_clean (key := key) hC hr hy k
  refine Clean.bind c e (Clean.bind Clean.act (hC.size hr hy) ?_)
  split
  · exact Clean.pure
  · exact Clean.then Clean.act fun _ => rfl

theorem insert_clean (hC : Refines C cap sw rep) (hr : rep y s) (hy : y i = some xs) (k : Probe κ) (e : ε) :
    Clean (insert key C i k e) (FlatOver.insert key C i k e) s := by
  obtain ⟨⟨a, l, e1⟩, c⟩ := lowerBound_clean (key := key) hC hr hy k
  refine Clean.bind c e1 (Clean.bind Clean.act (hC.size hr hy) ?_)
  by_cases ha : a = xs.length
  · simp only [ha, ne_eq, not_true_eq_false, if_false]; exact Clean.then Clean.act fun _ => rfl
  · simp only [ne_eq, ha, not_false_eq_true, if_true]
    refine Clean.bind Clean.act (hC.get hr hy (p := a) (by omega)) (Clean.user ?_)
    split
    · exact Clean.pure
    · exact Clean.then Clean.act fun _ => rfl

theorem index_clean (hC : Refines C cap sw rep) (hr : rep y s) (hy : y i = some xs) (k : Probe κ) (e : ε) :
    Clean (index key C i k e) (FlatOver.index key C i k e) s := by
  obtain ⟨⟨a, l, e1⟩, c⟩ := lowerBound_clean (key := key) hC hr hy k
  refine Clean.bind c e1 (Clean.bind Clean.act (hC.size hr hy) ?_)
  by_cases ha : a = xs.length
  · simp only [ha, ne_eq, not_true_eq_false, if_false]; exact Clean.user Clean.act
  · simp only [ne_eq, ha, not_false_eq_true, if_true]
    refine Clean.bind Clean.act (hC.get hr hy (p := a) (by omega)) (Clean.user ?_)
    split
    · exact Clean.pure
    · exact Clean.user Clean.act

theorem at_clean (hC : Refines C cap sw rep) (hr : rep y s) (hy : y i = some xs) (k : Probe κ) :
    Clean (at_ key C i k) (FlatOver.at_ key C i k) s := by
  obtain ⟨⟨a, l, e1⟩, c⟩ := lowerBound_clean (key := key) hC hr hy k
  refine Clean.bind c e1 (Clean.bind Clean.act (hC.size hr hy) ?_)
  by_cases ha : a = xs.length
  · simp only [ha, if_true]; exact Clean.raise
  · simp only [ha, if_false]
    refine Clean.bind Clean.act (hC.get hr hy (p := a) (by omega)) (Clean.user ?_)
    split
    · exact Clean.raise
    · exact Clean.pure

theorem exec_clean (hC : Refines C cap sw rep) (hr : rep y s) (hy : y i = some xs) (op : Op κ ε) :
    Clean (exec key C i op) (FlatOver.exec key C i op) s := by
  cases op with
  | insert k e => exact Clean.then (insert_clean hC hr hy k e) fun _ => rfl
  | index k e => exact Clean.then (index_clean hC hr hy k e) fun _ => act_bind (C.get i _) fun x => Pure.pure (Reply.ref _ x)
  | at_ k => exact Clean.then (at_clean hC hr hy k) fun _ => act_bind (C.get i _) fun x => Pure.pure (Reply.ref _ x)
  | eraseKey k => exact Clean.then (eraseKey_clean hC hr hy k) fun _ => rfl
  | find k => exact Clean.then (find_clean hC hr hy k).2 fun _ => rfl
  | count k => exact Clean.then (count_clean hC hr hy k) fun _ => rfl
  | lowerBound k => exact Clean.then (lowerBound_clean hC hr hy k).2 fun _ => rfl
  | upperBound k => exact Clean.then (upperBound_clean hC hr hy k) fun _ => rfl
  | equalRange k => exact Clean.then (equalRange_clean hC hr hy k) fun _ => rfl
  | eraseAt | get | update | size | clear => exact Clean.act

/-! ### Constructors -/

/-- `f` throws leaving some contents in container `i`, or it does what `g` does -/
def Basic (rep : Conts ε → σ → Prop) (i : Nat) (y : Conts ε) (f : M (TMem σ) α) (g : M σ α) (s : σ) : Prop :=
  ∀ l, (l ≠ none ∧ ∃ zs s' l', f ⟨s, l⟩ = .throw .user ⟨s', l'⟩ ∧ rep (Function.update y i (some zs)) s') ∨
    ∃ l', (l = none → l' = none) ∧ f ⟨s, l⟩ = relift l' (g s)

theorem Clean.basic {f : M (TMem σ) α} {g : M σ α} (h : Clean f g s) (hr : rep y s) (hy : y i = some xs) : Basic rep i y f g s := by
  intro l
  rcases h l with ⟨h1, l', h2⟩ | h
  · exact .inl ⟨h1, xs, s, l', h2, by rw [upd_same hy]; exact hr⟩
  · exact .inr h

theorem Basic.upd {f : M (TMem σ) α} {g : M σ α} {v : Option (List ε)} (h : Basic rep i (Function.update y i v) f g s) : Basic rep i y f g s := by
  intro l
  rcases h l with ⟨h1, zs, s', l', h2, h3⟩ | h
  · exact .inl ⟨h1, zs, s', l', h2, by rw [Function.update_idem] at h3; exact h3⟩
  · exact .inr h

/-- first something that leaves memory alone -/
theorem Basic.after {f : M (TMem σ) α} {g : M σ α} {f' : α → M (TMem σ) β} {g' : α → M σ β} {a : α} {s' : σ} (h : Basic rep i y f g s)
    (hg : g s = .ok a s') (h' : Basic rep i y (f' a) (g' a) s') : Basic rep i y (f >>= f') (g >>= g') s := by
  intro l
  rcases h l with ⟨h1, zs, s1, l1, h2, h3⟩ | ⟨l1, h1, h2⟩
  · exact .inl ⟨h1, zs, s1, l1, by simp only [bind_apply, h2], h3⟩
  · simp only [hg, relift] at h2
    rcases h' l1 with ⟨k1, zs, s2, l2, k2, k3⟩ | ⟨l2, k1, k2⟩
    · exact .inl ⟨fun e => k1 (h1 e), zs, s2, l2, by simp only [bind_apply, h2, k2], k3⟩
    · exact .inr ⟨l2, fun e => k1 (h1 e), by simp only [bind_apply, h2, hg, k2]⟩

theorem Basic.act {g : M σ α} : Basic rep i y (T.act g) g s := fun l => .inr ⟨l, id, act_eq g _⟩

theorem same_clean {lt : κ → κ → Bool} {a b : ε} :
    Clean (same key lt a b) (Pure.pure (!lt (key a) (key b) && !lt (key b) (key a))) s := by
  refine Clean.user ?_
  cases lt (key a) (key b)
  · simp only [Bool.not_false, if_true, Bool.true_and]
    exact Clean.user Clean.pure
  · simp only [Bool.not_true, Bool.false_eq_true, if_false, Bool.false_and]
    exact Clean.pure

theorem same_basic {lt : κ → κ → Bool} {a b : ε} {f : Bool → M (TMem σ) β} {g : M σ β} (hr : rep y s) (hy : y i = some xs)
    (h : Basic rep i y (f (!lt (key a) (key b) && !lt (key b) (key a))) g s) : Basic rep i y (same key lt a b >>= f) g s :=
  Basic.after (g' := fun _ => g) (same_clean.basic hr hy) rfl h

theorem same_bind {lt : κ → κ → Bool} {a b : ε} {f : Bool → M (TMem σ) β} {g : M σ β}
    (h : Clean (f (!lt (key a) (key b) && !lt (key b) (key a))) g s) : Clean (same key lt a b >>= f) g s :=
  Clean.bind (g' := fun _ => g) same_clean rfl h

/-- the predicate of `std::unique` -/
abbrev eqv (key : ε → κ) (lt : κ → κ → Bool) : ε → ε → Bool := fun a b => !lt (key a) (key b) && !lt (key b) (key a)

theorem adjacentFind_clean (hC : Refines C cap sw rep) (lt : κ → κ → Bool) (hr : rep y s) (hy : y i = some xs) : ∀ k p,
    p + k + 1 = xs.length → Clean (adjacentFind key C i lt p k) (FlatOver.adjacentFind C i (eqv key lt) p k) s := by
  intro k
  induction k with
  | zero => intro p _; exact Clean.pure
  | succ k ih =>
    intro p hp
    refine Clean.bind Clean.act (hC.get hr hy (p := p) (by omega)) (Clean.bind Clean.act (hC.get hr hy (p := p + 1) (by omega)) ?_)
    refine same_bind ?_
    split
    · exact Clean.pure
    · exact ih _ (by omega)

theorem uniqueLoop_basic (hC : Refines C cap sw rep) (lt : κ → κ → Bool) : ∀ k dest first (y : Conts ε) (s : σ) (xs : List ε),
    rep y s → y i = some xs → first + k = xs.length → dest + 1 < first →
    Basic rep i y (uniqueLoop key C i lt dest first k) (FlatOver.uniqueLoop C i (eqv key lt) dest first k) s := by
  intro k
  induction k with
  | zero => intro dest first y s xs _ _ _ _; exact Clean.pure.basic ‹_› ‹_›
  | succ k ih =>
    intro dest first y s xs hr hy hf hd
    refine Basic.after Basic.act (hC.get hr hy (p := dest) (by omega)) (Basic.after Basic.act (hC.get hr hy (p := first) (by omega)) ?_)
    refine same_basic hr hy ?_
    split
    · exact ih _ _ _ _ _ hr hy (by omega) (by omega)
    · obtain ⟨s1, w, h1, h2⟩ := hC.moveElem (p := dest + 1) (q := first) hr hy (by omega) (by omega) (by omega)
      exact Basic.after Basic.act h1 (Basic.upd (ih _ _ _ _ ((xs.set (dest + 1) xs[first]).set first w) h2 (by simp) (by simp; omega) (by omega)))

theorem unique_basic (hC : Refines C cap sw rep) (lt : κ → κ → Bool) (hr : rep y s) (hy : y i = some xs) :
    Basic rep i y (unique key C i lt) (FlatOver.unique C i (eqv key lt)) s := by
  refine Basic.after Basic.act (hC.size hr hy) ?_
  by_cases h0 : xs.length = 0
  · simp only [h0, if_true]; exact Clean.pure.basic hr hy
  · simp only [h0, if_false]
    have hc := adjacentFind_clean (key := key) hC lt hr hy (xs.length - 1) 0 (by omega)
    rcases adjacentFind_run hC (eqv key lt) (xs.length - 1) 0 xs hr hy (by omega) with ⟨e1, _⟩ | ⟨q, hq, e1, hl', _⟩
    · refine Basic.after (hc.basic hr hy) e1 ?_
      simp only [if_true]
      exact Clean.pure.basic hr hy
    · refine Basic.after (hc.basic hr hy) e1 ?_
      rw [if_neg (by omega), if_neg (by omega)]
      exact uniqueLoop_basic hC lt _ _ _ _ _ _ hr hy (by omega) (by omega)

theorem upd_gone {c t : Nat} {a : Option (List ε)} (hct : c ≠ t) (hc : y c = none) (ht : y t = none) :
    Function.update (Function.update (Function.update y t a) c none) t none = y := by
  funext n
  by_cases h1 : n = t
  · subst h1; simp [ht]
  · by_cases h2 : n = c
    · subst h2; simp [h1, hc]
    · simp [h1, h2]

/-- the constructor throws what user code throws and leaves nothing, or it does what it does without exceptions -/
theorem ofContainer_clean (hC : Refines C cap sw rep) (lt : κ → κ → Bool) {c t : Nat} (hct : c ≠ t) {ys sorted : List ε}
    (hl : sorted.length = ys.length) (hr : rep y s) (hc : y c = none) (ht : y t = none) (hf : Spec.fits cap ys.length = true) (l : Option Nat) :
    (l ≠ none ∧ ∃ t', ofContainer key C lt c t ys (sorted, false) ⟨s, l⟩ = .throw .user t' ∧ rep y t'.mem) ∨
    ∃ t', ofContainer key C lt c t ys (sorted, false) ⟨s, l⟩ = .ok () t' ∧ rep (Function.update y c (some (Flat.ofContainer key lt sorted).cs)) t'.mem := by
  obtain ⟨s1, a1, b1⟩ := hC.ctorRange hr ht hf
  obtain ⟨s2, a2, b2⟩ := hC.moveCtor (i := c) (j := t) (xs := ys) b1 (by rw [Function.update_of_ne hct]; exact hc) (by simp)
  rw [Function.update_comm hct, Function.update_idem] at b2
  obtain ⟨s3, a3, b3⟩ := sortInto_run hC (i := c) sorted 0 ys b2 (by simp) (by simp [hl])
  rw [Function.update_idem] at b3
  have hb := unique_basic (key := key) hC lt (i := c) (xs := ys.take 0 ++ sorted) b3 (by simp)
  obtain ⟨s4, e, xs', a4, b4, h5, h6, h7⟩ := unique_run hC (i := c) (eqv key lt) (xs := ys.take 0 ++ sorted) b3 (by simp)
  rw [Function.update_idem] at b4
  have a5 := hC.size (i := c) (xs := xs') b4 (by simp)
  obtain ⟨s6, a6, b6⟩ := hC.eraseToEnd (i := c) (xs := xs') (p := e) b4 (by simp) (by omega)
  rw [Function.update_idem] at b6
  obtain ⟨s7, a7, b7⟩ := hC.dtor (i := t) (xs := []) b6 (by simp [Function.update_of_ne (Ne.symm hct)])
  rcases hb l with ⟨k1, zs, s', l', k2, k3⟩ | ⟨l', k1, k2⟩
  · left
    rw [Function.update_idem] at k3
    obtain ⟨s8, a8, b8⟩ := hC.dtor (i := c) (xs := zs) k3 (by simp)
    rw [Function.update_idem] at b8
    obtain ⟨s9, a9, b9⟩ := hC.dtor (i := t) (xs := []) b8 (by simp [Function.update_of_ne (Ne.symm hct)])
    refine ⟨k1, ⟨s9, l'⟩, ?_, ?_⟩
    · simp only [ofContainer, bind_apply, act_eq, a1, a2, relift, cleanup, a3, Bool.false_eq_true, if_false, k2, a8, a9]
    · rw [upd_gone hct hc ht] at b9
      exact b9
  · right
    refine ⟨⟨s7, l'⟩, ?_, ?_⟩
    · simp only [ofContainer, bind_apply, act_eq, a1, a2, relift, cleanup, a3, Bool.false_eq_true, if_false, k2, a4, a5, a6, a7, pure_apply]
    · rw [Function.update_comm hct, Function.update_idem, h7, List.take_zero, List.nil_append] at b7
      rw [← ht, Function.update_eq_self] at b7
      exact b7

/-- when `std::sort` throws, nothing is left -/
theorem ofContainer_sort (hC : Refines C cap sw rep) (lt : κ → κ → Bool) {c t : Nat} (hct : c ≠ t) {ys zs : List ε}
    (hl : zs.length = ys.length) (hr : rep y s) (hc : y c = none) (ht : y t = none) (hf : Spec.fits cap ys.length = true) (l : Option Nat) :
    ∃ t', ofContainer key C lt c t ys (zs, true) ⟨s, l⟩ = .throw .user t' ∧ rep y t'.mem := by
  obtain ⟨s1, a1, b1⟩ := hC.ctorRange hr ht hf
  obtain ⟨s2, a2, b2⟩ := hC.moveCtor (i := c) (j := t) (xs := ys) b1 (by rw [Function.update_of_ne hct]; exact hc) (by simp)
  rw [Function.update_comm hct, Function.update_idem] at b2
  obtain ⟨s3, a3, b3⟩ := sortInto_run hC (i := c) zs 0 ys b2 (by simp) (by simp [hl])
  rw [Function.update_idem] at b3
  obtain ⟨s8, a8, b8⟩ := hC.dtor (i := c) (xs := ys.take 0 ++ zs) b3 (by simp)
  rw [Function.update_idem] at b8
  obtain ⟨s9, a9, b9⟩ := hC.dtor (i := t) (xs := []) b8 (by simp [Function.update_of_ne (Ne.symm hct)])
  refine ⟨⟨s9, l⟩, ?_, ?_⟩
  · simp only [ofContainer, bind_apply, act_eq, a1, a2, relift, cleanup, a3, if_true, raise_apply, a8, a9]
  · rw [upd_gone hct hc ht] at b9
    exact b9

theorem ofContainer_full (hC : Refines C cap sw rep) (lt : κ → κ → Bool) {c t : Nat} {ys : List ε} {sort : List ε × Bool}
    (hr : rep y s) (ht : y t = none) (hf : Spec.fits cap ys.length = false) (l : Option Nat) :
    ∃ t', ofContainer key C lt c t ys sort ⟨s, l⟩ = .throw .outOfRange t' ∧ rep y t'.mem := by
  obtain ⟨s1, a1, b1⟩ := hC.ctorRange_full hr ht hf
  exact ⟨⟨s1, l⟩, by simp only [ofContainer, bind_apply, act_eq, a1, relift], b1⟩

end clean
end Itlib.FlatOver.T
