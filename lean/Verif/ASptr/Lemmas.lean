import Verif.ASptr.Spec
import Verif.Core.Tac
import Mathlib.Logic.Equiv.Basic
import Mathlib.Data.List.Nodup

namespace Itlib.ASptr
open Itlib.Conc

/-! ### Counting owners -/
section
open Spec
variable {g : Place → Nat} {n : Nat → Nat}

theorem Exact.swap (h : Exact g n) (a b : Place) : Exact (fun p => g (Equiv.swap a b p)) n := by
  intro q hq
  obtain ⟨l, h1, h2, h3⟩ := h q hq
  refine ⟨l.map (Equiv.swap a b), h1.map (Equiv.swap a b).injective, ?_, by simpa using h3⟩
  intro p
  rw [← h2, List.mem_map]
  constructor
  · rintro ⟨p', hp, rfl⟩; simpa using hp
  · intro hp; exact ⟨_, hp, by simp⟩

theorem Exact.add (h : Exact g n) {a : Place} (ha : g a = 0) {q : Nat} (hq : q ≠ 0) :
    Exact (Function.update g a q) (Function.update n q (n q + 1)) := by
  intro q' hq'
  obtain ⟨l, h1, h2, h3⟩ := h q' hq'
  have hal : a ∉ l := by rw [h2, ha]; exact fun e => hq' e.symm
  by_cases e : q' = q
  · subst e
    refine ⟨a :: l, List.nodup_cons.mpr ⟨hal, h1⟩, ?_, by simp [h3]⟩
    intro p
    by_cases hp : p = a
    · subst hp; simp
    · simp [hp, h2]
  · refine ⟨l, h1, ?_, by simpa [e] using h3⟩
    intro p
    by_cases hp : p = a
    · subst hp
      simp only [Function.update_self]
      exact ⟨fun h => absurd h hal, fun h => absurd h.symm e⟩
    · simp [hp, h2]

theorem Exact.remove (h : Exact g n) {a : Place} {q : Nat} (ha : g a = q) (hq : q ≠ 0) :
    Exact (Function.update g a 0) (Function.update n q (n q - 1)) := by
  intro q' hq'
  obtain ⟨l, h1, h2, h3⟩ := h q' hq'
  by_cases e : q' = q
  · subst e
    have hal : a ∈ l := by rw [h2, ha]
    refine ⟨l.erase a, h1.erase a, ?_, ?_⟩
    · intro p
      rw [h1.mem_erase_iff, h2]
      by_cases hp : p = a
      · subst hp; simp; exact fun e => hq' e.symm
      · simp [hp]
    · rw [Function.update_self, List.length_erase_of_mem hal, h3]
  · refine ⟨l, h1, ?_, by simpa [e] using h3⟩
    intro p
    by_cases hp : p = a
    · subst hp
      simp only [Function.update_self, h2, ha]
      exact ⟨fun h => absurd h.symm e, fun h => absurd h.symm hq'⟩
    · simp [hp, h2]

theorem Exact.pos (h : Exact g n) {a : Place} (ha : g a ≠ 0) : 0 < n (g a) := by
  obtain ⟨l, h1, h2, h3⟩ := h _ ha
  rw [h3]
  exact List.length_pos_iff.mpr (List.ne_nil_of_mem ((h2 a).mpr rfl))

theorem owns_set (s : St) (t : Nat) (x : Var) (v : SP) : owns (s.set t x v) = Function.update (owns s) (.var t x) v.ctl := by
  funext p
  cases p with
  | storage => simp [owns, St.set]
  | slot b => simp [owns, St.set]
  | var t' x' =>
    by_cases ht : t' = t
    · subst ht
      by_cases hx : x' = x
      · subst hx; simp [owns, St.set]
      · simp [owns, St.set, hx]
    · simp [owns, St.set, ht]

end

/-! ### What a thread knows -/

/-- Knowledge of a thread: its variables, its variables in the specification, when it holds the lock the words of `m_ptr` and the
register of the specification, and how far the call is. -/
structure Know where
  cells : Var → SP
  vars : Nat → SP
  cs : Option (Nat × Nat × SP)
  ph : Phase Op Out

/-- the thread's variables when no call is running -/
def ofUser (vars : Nat → SP) : Var → SP
  | .user n => vars n
  | _ => null

/-- the knowledge is true -/
structure Rel (t : Nat) (K : Know) (s : St) (z : Spec.Z) (φ : Phase Op Out) : Prop where
  cells : s.cells t = K.cells
  vars : z.vars t = K.vars
  ph : φ = K.ph
  out : K.cs = none → s.holder ≠ some t
  held : ∀ p q v, K.cs = some (p, q, v) → s.holder = some t ∧ s.mp = p ∧ s.mc = q ∧ z.reg = v

/-- Doing `a` is defined. Releasing while holding the lock happens only in `compare_exchange`, when it fails. -/
def Pre (f : Op) : Act → Know → Prop
  | .lock, K => K.cs = none
  | .unlock, K => ∃ p q, K.cs = some (p, q, ⟨p, q⟩)
  | .rdPtr, K => K.cs ≠ none
  | .rdCtl, K => K.cs ≠ none
  | .wrPtr _, K => K.cs ≠ none
  | .wrCtl _ _ q, K => ∃ p' v, K.cs = some (p', q, v)
  | .acquire x _ q, K => K.cells x = null ∧ ((∃ y, (K.cells y).ctl = q) ∨ ∃ p v, K.cs = some (p, q, v))
  | .make x, K => K.cells x = null
  | .release _, K => K.cs ≠ none → (∃ mv e x, f = .cas mv e x) ∧ K.ph = .done f (.flag false)
  | .move d s, K => K.cells d = null ∧ d ≠ s
  | .swap a b, _ => a ≠ b
  | .deref x, K => (K.cells x).ctl ≠ 0
  | _, _ => True

/-- `x := v` -/
def Know.set (K : Know) (x : Var) (v : SP) : Know := { K with cells := Function.update K.cells x v }

/-- the knowledge after doing `a` with result `r` -/
def Post : (a : Act) → Know → a.Res → Know → Prop
  | .lock, K, _, K' => ∃ v : SP, K' = { K with cs := some (v.ptr, v.ctl, v) }
  | .unlock, K, _, K' => K' = { K with cs := none }
  | .rdPtr, K, r, K' => K' = K ∧ ∃ p q v, K.cs = some (p, q, v) ∧ r = p
  | .rdCtl, K, r, K' => K' = K ∧ ∃ p q v, K.cs = some (p, q, v) ∧ r = q
  | .wrPtr x, K, _, K' => ∃ p q v, K.cs = some (p, q, v) ∧ K' = { K with cs := some ((K.cells x).ptr, q, v) }
  | .wrCtl x p q, K, _, K' => ∃ p' q' v, K.cs = some (p', q', v) ∧ K' = { K with cs := some (p', (K.cells x).ctl, v) }.set x ⟨p, q⟩
  | .rd x, K, r, K' => K' = K ∧ r = K.cells x
  | .acquire x p q, K, _, K' => K' = K.set x ⟨p, q⟩
  | .make x, K, r, K' => SP.ctl r ≠ 0 ∧ K' = K.set x r
  | .release x, K, _, K' => K' = K.set x null
  | .move d s, K, _, K' => K' = (K.set d (K.cells s)).set s null
  | .swap a b, K, _, K' => K' = (K.set a (K.cells b)).set b (K.cells a)
  | .deref _, K, _, K' => K' = K
  | .xchg x _, K, r, K' => K' = K.set x r

/-- the call takes effect now -/
def Lin (f : Op) (K K' : Know) : Prop :=
  ∃ y, K.ph = .pending f ∧
    ((∃ p q v r' vars', K.cs = some (p, q, v) ∧ Spec.loc v K.vars f y r' vars' ∧
        K' = { K with vars := vars', cs := some (p, q, r'), ph := .done f y }) ∨
     (∃ vars', K.cs = none ∧ (∀ v, Spec.loc v K.vars f y v vars') ∧ K' = { K with vars := vars', ph := .done f y }))

/-- The rest `p` of a call is fine with knowledge `K`: nothing undefined, takes effect once, leaves everything tidy. -/
def Ok (f : Op) : P Out → Know → Prop
  | .ret y, K => K.cs = none ∧ K.ph = .done f y ∧ K.cells = ofUser K.vars
  | .act a k, K => Pre f a K ∧ ∀ r K', Post a K r K' → ∃ K'', (K'' = K' ∨ Lin f K' K'') ∧ Ok f (k r) K''

/-- simulation relation -/
structure J (c : Config Act Act.Res St Op Out) (z : Spec.Z) (ph : Nat → Phase Op Out) : Prop where
  exact_ : Spec.Exact (Spec.owns c.shared) c.shared.count
  free : c.shared.holder = none → z.reg = ⟨c.shared.mp, c.shared.mc⟩
  held : ∀ t, c.shared.holder = some t → c.threads t ≠ none
  idle : ∀ t, c.threads t = none → ph t = .idle ∧ c.shared.cells t = ofUser (z.vars t)
  run : ∀ t f p, c.threads t = some (f, p) → ∃ K, Rel t K c.shared z (ph t) ∧ Ok f p K

/-! ### Steps -/

/-- what a step of thread `t` leaves alone -/
structure Frame (t : Nat) (s s' : St) : Prop where
  cells : ∀ t', t' ≠ t → s'.cells t' = s.cells t'
  holder : ∀ t', t' ≠ t → (s'.holder = some t' ↔ s.holder = some t')
  words : s.holder ≠ some t → s'.mp = s.mp ∧ s'.mc = s.mc

theorem Frame.set {t : Nat} {s s' : St} (h : Frame t s s') (x : Var) (v : SP) : Frame t s (s'.set t x v) :=
  ⟨fun t' ht => by simp [St.set, ht, h.cells t' ht], fun t' ht => by simpa [St.set] using h.holder t' ht, fun hn => by simpa [St.set] using h.words hn⟩

theorem Frame.refl (t : Nat) (s : St) : Frame t s s := ⟨fun _ _ => rfl, fun _ _ => Iff.rfl, fun _ => ⟨rfl, rfl⟩⟩

theorem St.inc_frame (s : St) (q : Nat) : (s.inc q).cells = s.cells ∧ (s.inc q).holder = s.holder ∧ (s.inc q).mp = s.mp ∧ (s.inc q).mc = s.mc ∧
    (s.inc q).box = s.box := by
  unfold St.inc; split <;> exact ⟨rfl, rfl, rfl, rfl, rfl⟩

theorem St.dec_frame (s : St) (t q : Nat) : (s.dec t q).cells = s.cells ∧ (s.dec t q).holder = s.holder ∧ (s.dec t q).mp = s.mp ∧
    (s.dec t q).mc = s.mc ∧ (s.dec t q).box = s.box := by
  unfold St.dec; split <;> exact ⟨rfl, rfl, rfl, rfl, rfl⟩

theorem owns_inc (s : St) (q : Nat) : Spec.owns (s.inc q) = Spec.owns s := by
  obtain ⟨h1, -, -, h2, h3⟩ := s.inc_frame q
  funext p; cases p <;> simp [Spec.owns, h1, h2, h3]

theorem owns_dec (s : St) (t q : Nat) : Spec.owns (s.dec t q) = Spec.owns s := by
  obtain ⟨h1, -, -, h2, h3⟩ := s.dec_frame t q
  funext p; cases p <;> simp [Spec.owns, h1, h2, h3]

theorem Rel.set {t : Nat} {K : Know} {s : St} {z : Spec.Z} {φ : Phase Op Out} (h : Rel t K s z φ) (x : Var) (v : SP) :
    Rel t (K.set x v) (s.set t x v) z φ := by
  refine ⟨?_, h.vars, h.ph, h.out, h.held⟩
  simp [St.set, Know.set, h.cells]

theorem Rel.of_frame {t : Nat} {K : Know} {s s' : St} {z : Spec.Z} {φ : Phase Op Out} (h : Rel t K s z φ) (h1 : s'.cells = s.cells)
    (h2 : s'.holder = s.holder) (h3 : s'.mp = s.mp) (h4 : s'.mc = s.mc) : Rel t K s' z φ :=
  ⟨by rw [h1]; exact h.cells, h.vars, h.ph, by rw [h2]; exact h.out, by rw [h2, h3, h4]; exact h.held⟩

/-- adding an owner -/
theorem exact_inc {s : St} {t q : Nat} {x : Var} {p : Nat} (h : Spec.Exact (Spec.owns s) s.count) (hx : s.cells t x = null) :
    Spec.Exact (Spec.owns ((s.inc q).set t x ⟨p, q⟩)) ((s.inc q).set t x ⟨p, q⟩).count := by
  rw [owns_set, owns_inc]
  have h0 : Spec.owns s (.var t x) = 0 := by simp [Spec.owns, hx, null]
  by_cases hq : q = 0
  · subst hq
    have : Function.update (Spec.owns s) (.var t x) 0 = Spec.owns s := by
      rw [← h0]; exact Function.update_eq_self _ _
    simp only [St.inc, if_true, St.set, this]
    exact h
  · have := Exact.add h h0 hq
    simp only [St.inc, if_neg hq, St.set]
    exact this

/-- removing an owner -/
theorem exact_dec {s : St} {t : Nat} {x : Var} (h : Spec.Exact (Spec.owns s) s.count) :
    Spec.Exact (Spec.owns ((s.dec t (s.cells t x).ctl).set t x null)) ((s.dec t (s.cells t x).ctl).set t x null).count := by
  rw [owns_set, owns_dec]
  by_cases hq : (s.cells t x).ctl = 0
  · have : Function.update (Spec.owns s) (.var t x) null.ctl = Spec.owns s := by
      have : null.ctl = Spec.owns s (.var t x) := by simp [Spec.owns, hq, null]
      rw [this]; exact Function.update_eq_self _ _
    simp only [St.dec, if_pos hq, St.set, this]
    exact h
  · have := Exact.remove h (a := .var t x) (q := (s.cells t x).ctl) rfl hq
    simp only [St.dec, if_neg hq, St.set]
    exact this

/-- exchanging what two places own -/
theorem exact_swap {s s' : St} (h : Spec.Exact (Spec.owns s) s.count) (a b : Spec.Place)
    (hs : Spec.owns s' = Function.update (Function.update (Spec.owns s) a (Spec.owns s b)) b (Spec.owns s a)) (hc : s'.count = s.count) :
    Spec.Exact (Spec.owns s') s'.count := by
  rw [hc]
  have : Spec.owns s' = fun p => Spec.owns s (Equiv.swap a b p) := by
    rw [hs]
    funext p
    by_cases h2 : p = b
    · subst h2; simp
    · by_cases h1 : p = a
      · subst h1; simp [h2]
      · simp [h1, h2, Equiv.swap_apply_of_ne_of_ne h1 h2]
  rw [this]
  exact Exact.swap h a b

theorem step_ok {f : Op} {t : Nat} {K : Know} {s : St} {z : Spec.Z} {φ : Phase Op Out} {a : Act} {r : a.Res} {s' : St} (hr : Rel t K s z φ)
    (hp : Pre f a K) (hx : Spec.Exact (Spec.owns s) s.count) (hfree : s.holder = none → z.reg = ⟨s.mp, s.mc⟩) (hd : Does t a s r s') :
    (∃ K', Post a K r K' ∧ Rel t K' s' z φ) ∧ Spec.Exact (Spec.owns s') s'.count ∧ Frame t s s' ∧
      (s'.holder = none → z.reg = ⟨s'.mp, s'.mc⟩) ∧ ∀ t', s'.holder = some t' → s.holder = some t' ∨ t' = t := by
  cases hd with
  | lock _ h =>
    refine ⟨⟨_, ⟨z.reg, rfl⟩, ?_⟩, hx, ?_, ?_, ?_⟩
    · have := hfree h
      refine ⟨hr.cells, hr.vars, hr.ph, by simp, ?_⟩
      intro p q v hcs
      simp only [Option.some.injEq, Prod.mk.injEq] at hcs
      obtain ⟨rfl, rfl, rfl⟩ := hcs
      exact ⟨rfl, by simp [this], by simp [this], rfl⟩
    · exact ⟨fun _ _ => rfl, fun t' ht => by simp [h]; exact fun e => ht e.symm, fun _ => ⟨rfl, rfl⟩⟩
    · intro h; cases h
    · intro t' h; right; cases h; rfl
  | unlock _ =>
    obtain ⟨p, q, hcs⟩ := hp
    obtain ⟨h1, h2, h3, h4⟩ := hr.held _ _ _ hcs
    refine ⟨⟨_, rfl, ?_⟩, hx, ?_, ?_, ?_⟩
    · exact ⟨hr.cells, hr.vars, hr.ph, by simp, by intro _ _ _ h; cases h⟩
    · exact ⟨fun _ _ => rfl, fun t' ht => by simp [h1]; exact fun e => ht e.symm, fun _ => ⟨rfl, rfl⟩⟩
    · intro _; simp [h4, h2, h3]
    · intro t' h; cases h
  | rdPtr _ =>
    obtain ⟨⟨p, q, v⟩, hcs⟩ := Option.ne_none_iff_exists'.mp hp
    obtain ⟨h1, h2, h3, h4⟩ := hr.held _ _ _ hcs
    exact ⟨⟨K, ⟨rfl, p, q, v, hcs, h2⟩, hr⟩, hx, .refl _ _, hfree, fun _ h => Or.inl h⟩
  | rdCtl _ =>
    obtain ⟨⟨p, q, v⟩, hcs⟩ := Option.ne_none_iff_exists'.mp hp
    obtain ⟨h1, h2, h3, h4⟩ := hr.held _ _ _ hcs
    exact ⟨⟨K, ⟨rfl, p, q, v, hcs, h3⟩, hr⟩, hx, .refl _ _, hfree, fun _ h => Or.inl h⟩
  | wrPtr _ x =>
    obtain ⟨⟨p, q, v⟩, hcs⟩ := Option.ne_none_iff_exists'.mp hp
    obtain ⟨h1, h2, h3, h4⟩ := hr.held _ _ _ hcs
    refine ⟨⟨_, ⟨p, q, v, hcs, rfl⟩, ?_⟩, ?_, ?_, ?_, fun _ h => Or.inl h⟩
    · refine ⟨hr.cells, hr.vars, hr.ph, by simp, ?_⟩
      intro p' q' v' h
      simp only [Option.some.injEq, Prod.mk.injEq] at h
      obtain ⟨rfl, rfl, rfl⟩ := h
      exact ⟨h1, by simp [hr.cells], h3, h4⟩
    · have : Spec.owns { s with mp := (s.cells t x).ptr } = Spec.owns s := by funext p; cases p <;> rfl
      rw [this]; exact hx
    · exact ⟨fun _ _ => rfl, fun _ _ => Iff.rfl, fun h => absurd h1 h⟩
    · intro h; simp [h1] at h
  | wrCtl _ x p q =>
    obtain ⟨p', v, hcs⟩ := hp
    obtain ⟨h1, h2, h3, h4⟩ := hr.held _ _ _ hcs
    refine ⟨⟨_, ⟨p', q, v, hcs, rfl⟩, ?_⟩, ?_, ?_, ?_, fun _ h => Or.inl h⟩
    · refine Rel.set ?_ x _
      refine ⟨hr.cells, hr.vars, hr.ph, by simp, ?_⟩
      intro p'' q'' v' h
      simp only [Option.some.injEq, Prod.mk.injEq] at h
      obtain ⟨rfl, rfl, rfl⟩ := h
      exact ⟨h1, h2, by simp [hr.cells], h4⟩
    · refine exact_swap hx .storage (.var t x) ?_ rfl
      rw [owns_set]
      have : Spec.owns { s with mc := (s.cells t x).ctl } = Function.update (Spec.owns s) .storage (s.cells t x).ctl := by
        funext p; cases p <;> simp [Spec.owns]
      rw [this]
      simp [Spec.owns, h3]
    · exact ⟨fun t' ht => by simp [St.set, ht], fun _ _ => Iff.rfl, fun h => absurd h1 h⟩
    · intro h; simp [St.set, h1] at h
  | rd _ x => exact ⟨⟨K, ⟨rfl, by rw [hr.cells]⟩, hr⟩, hx, .refl _ _, hfree, fun _ h => Or.inl h⟩
  | acquire _ x p q =>
    obtain ⟨e1, e2, e3, e4, e5⟩ := s.inc_frame q
    refine ⟨⟨_, rfl, ?_⟩, ?_, ?_, ?_, ?_⟩
    · exact (hr.of_frame e1 e2 e3 e4).set _ _
    · exact exact_inc hx (by rw [hr.cells]; exact hp.1)
    · exact Frame.set ⟨fun _ _ => by rw [e1], fun _ _ => by rw [e2], fun _ => ⟨e3, e4⟩⟩ _ _
    · simpa [St.set, e2, e3, e4] using hfree
    · intro t' h; left; simpa [St.set, e2] using h
  | make _ x v hq h =>
    obtain ⟨e1, e2, e3, e4, e5⟩ := s.inc_frame v.ctl
    refine ⟨⟨_, ⟨hq, rfl⟩, ?_⟩, ?_, ?_, ?_, ?_⟩
    · exact (hr.of_frame e1 e2 e3 e4).set _ _
    · exact exact_inc (p := v.ptr) hx (by rw [hr.cells]; exact hp)
    · exact Frame.set ⟨fun _ _ => by rw [e1], fun _ _ => by rw [e2], fun _ => ⟨e3, e4⟩⟩ _ _
    · simpa [St.set, e2, e3, e4] using hfree
    · intro t' h; left; simpa [St.set, e2] using h
  | release _ x =>
    obtain ⟨e1, e2, e3, e4, e5⟩ := s.dec_frame t (s.cells t x).ctl
    refine ⟨⟨_, rfl, ?_⟩, ?_, ?_, ?_, ?_⟩
    · exact (hr.of_frame e1 e2 e3 e4).set _ _
    · exact exact_dec hx
    · exact Frame.set ⟨fun _ _ => by rw [e1], fun _ _ => by rw [e2], fun _ => ⟨e3, e4⟩⟩ _ _
    · simpa [St.set, e2, e3, e4] using hfree
    · intro t' h; left; simpa [St.set, e2] using h
  | move _ d x =>
    obtain ⟨h1, h2⟩ := hp
    refine ⟨⟨_, rfl, ?_⟩, ?_, ?_, ?_, ?_⟩
    · rw [hr.cells]
      exact (hr.set _ _).set _ _
    · refine exact_swap hx (.var t d) (.var t x) ?_ rfl
      rw [owns_set, owns_set]
      simp [Spec.owns, hr.cells, h1, null]
    · exact ((Frame.refl t s).set _ _).set _ _
    · simpa [St.set] using hfree
    · intro t' h; left; simpa [St.set] using h
  | swap _ a b =>
    refine ⟨⟨_, rfl, ?_⟩, ?_, ?_, ?_, ?_⟩
    · rw [hr.cells]
      exact (hr.set _ _).set _ _
    · refine exact_swap hx (.var t a) (.var t b) ?_ rfl
      rw [owns_set, owns_set]
      simp [Spec.owns]
    · exact ((Frame.refl t s).set _ _).set _ _
    · simpa [St.set] using hfree
    · intro t' h; left; simpa [St.set] using h
  | deref _ x => exact ⟨⟨K, rfl, hr⟩, hx, .refl _ _, hfree, fun _ h => Or.inl h⟩
  | xchg _ x b =>
    refine ⟨⟨_, rfl, ?_⟩, ?_, ?_, ?_, ?_⟩
    · refine Rel.set (hr.of_frame ?_ ?_ ?_ ?_) _ _ <;> rfl
    · refine exact_swap hx (.slot b) (.var t x) ?_ rfl
      rw [owns_set]
      have : Spec.owns { s with box := Function.update s.box b (s.cells t x) } = Function.update (Spec.owns s) (.slot b) (s.cells t x).ctl := by
        funext p
        cases p with
        | slot b' =>
          by_cases e : b' = b
          · subst e; simp [Spec.owns]
          · simp [Spec.owns, e]
        | _ => simp [Spec.owns]
      rw [this]
      simp [Spec.owns]
    · refine Frame.set ?_ _ _
      exact ⟨fun _ _ => rfl, fun _ _ => Iff.rfl, fun _ => ⟨rfl, rfl⟩⟩
    · simpa [St.set] using hfree
    · intro t' h; left; simpa [St.set] using h

theorem not_bad {f : Op} {t : Nat} {K : Know} {s : St} {z : Spec.Z} {φ : Phase Op Out} {a : Act} (hr : Rel t K s z φ) (hp : Pre f a K)
    (hx : Spec.Exact (Spec.owns s) s.count) : ¬ Bad t a s := by
  have hold : K.cs ≠ none → s.holder = some t := by
    intro h
    obtain ⟨⟨p, q, v⟩, hcs⟩ := Option.ne_none_iff_exists'.mp h
    exact (hr.held _ _ _ hcs).1
  cases a with
  | lock => exact hr.out hp
  | unlock => obtain ⟨p, q, hcs⟩ := hp; exact fun h => h (hold (by simp [hcs]))
  | rdPtr => exact fun h => h (hold hp)
  | rdCtl => exact fun h => h (hold hp)
  | wrPtr x => exact fun h => h (hold hp)
  | wrCtl x p q => obtain ⟨p', v, hcs⟩ := hp; exact fun h => h (hold (by simp [hcs]))
  | acquire x p q =>
    rintro (⟨hq, h⟩ | h)
    · rcases hp.2 with ⟨y, hy⟩ | ⟨p', v, hcs⟩
      · have := Exact.pos hx (a := .var t y) (by simpa [Spec.owns, hr.cells, hy] using hq)
        simp only [Spec.owns, hr.cells, hy] at this
        omega
      · obtain ⟨-, -, h3, -⟩ := hr.held _ _ _ hcs
        have := Exact.pos hx (a := .storage) (by simpa [Spec.owns, h3] using hq)
        simp only [Spec.owns, h3] at this
        omega
    · rw [hr.cells] at h; exact h hp.1
  | make x => intro h; simp only [Bad, hr.cells] at h; exact h hp
  | release x =>
    rintro ⟨h1, h2⟩
    have := Exact.pos hx (a := .var t x) h1
    simp only [Spec.owns] at this
    omega
  | move d x => intro h; simp only [Bad, hr.cells] at h; exact h hp.1
  | rd x => exact fun h => h
  | swap a b => exact fun h => h
  | xchg x b => exact fun h => h
  | deref x =>
    rintro (h | h)
    · rw [hr.cells] at h; exact hp h
    · have := Exact.pos hx (a := .var t x) (by simp only [Spec.owns, hr.cells]; exact hp)
      simp only [Spec.owns] at this
      omega

/-- knowledge of other threads survives -/
theorem Rel.other {t t' : Nat} {K : Know} {s s' : St} {z : Spec.Z} {φ : Phase Op Out} (h : Rel t' K s z φ) (hf : Frame t s s') (ht : t' ≠ t) :
    Rel t' K s' z φ := by
  refine ⟨by rw [hf.cells t' ht]; exact h.cells, h.vars, h.ph, ?_, ?_⟩
  · intro hc; rw [Ne, hf.holder t' ht]; exact h.out hc
  · intro p q v hcs
    obtain ⟨h1, h2, h3, h4⟩ := h.held p q v hcs
    obtain ⟨h5, h6⟩ := hf.words (by rw [h1]; intro e; cases e; exact ht rfl)
    exact ⟨(hf.holder t' ht).mpr h1, by rw [h5]; exact h2, by rw [h6]; exact h3, h4⟩

theorem J.step {c : Config Act Act.Res St Op Out} {z : Spec.Z} {ph : Nat → Phase Op Out} (h : J c z ph) {t : Nat} {f : Op} {a : Act}
    {k : a.Res → P Out} {r : a.Res} {s' : St} (ht : c.threads t = some (f, .act a k)) (hd : Does t a c.shared r s') :
    J ⟨s', Function.update c.threads t (some (f, k r))⟩ z ph ∨
    ∃ y z', ph t = .pending f ∧ Spec.call z (t, f, y) z' ∧
      J ⟨s', Function.update c.threads t (some (f, k r))⟩ z' (Function.update ph t (.done f y)) := by
  obtain ⟨K, hr, hpre, hok⟩ := h.run t f _ ht
  obtain ⟨⟨K', hpost, hr'⟩, hx, hf, hfree, hh⟩ := step_ok hr hpre h.exact_ h.free hd
  obtain ⟨K'', hk, hok'⟩ := hok r K' hpost
  have hheld : ∀ t', s'.holder = some t' → Function.update c.threads t (some (f, k r)) t' ≠ none := by
    intro t' ht'
    by_cases e : t' = t
    · subst e; simp
    · rw [Function.update_of_ne e]
      rcases hh t' ht' with h1 | h1
      · exact h.held t' h1
      · exact absurd h1 e
  rcases hk with rfl | hlin
  · left
    refine ⟨hx, hfree, hheld, ?_, ?_⟩
    · intro t' ht'
      by_cases e : t' = t
      · subst e; simp at ht'
      · simp only [Function.update_of_ne e] at ht'
        obtain ⟨h1, h2⟩ := h.idle t' ht'
        exact ⟨h1, by rw [hf.cells t' e]; exact h2⟩
    · intro t' f' p' ht'
      by_cases e : t' = t
      · subst e
        simp only [Function.update_self, Option.some.injEq, Prod.mk.injEq] at ht'
        obtain ⟨rfl, rfl⟩ := ht'
        exact ⟨K'', hr', hok'⟩
      · simp only [Function.update_of_ne e] at ht'
        obtain ⟨K1, h1, h2⟩ := h.run t' f' p' ht'
        exact ⟨K1, h1.other hf e, h2⟩
  · right
    obtain ⟨y, hp, hlin⟩ := hlin
    have key : ∀ vars' reg', Spec.loc z.reg (z.vars t) f y reg' vars' → (s'.holder = some t ∨ reg' = z.reg) → K''.ph = .done f y →
        Rel t K'' s' ⟨reg', Function.update z.vars t vars'⟩ (.done f y) →
        J ⟨s', Function.update c.threads t (some (f, k r))⟩ ⟨reg', Function.update z.vars t vars'⟩ (Function.update ph t (.done f y)) := by
      intro vars' reg' _ hreg _ hrel
      refine ⟨hx, ?_, hheld, ?_, ?_⟩
      · intro hn
        rcases hreg with h1 | h1
        · simp [h1] at hn
        · simp only [h1]; exact hfree hn
      · intro t' ht'
        by_cases e : t' = t
        · subst e; simp at ht'
        · simp only [Function.update_of_ne e] at ht' ⊢
          obtain ⟨h1, h2⟩ := h.idle t' ht'
          exact ⟨h1, by rw [hf.cells t' e]; exact h2⟩
      · intro t' f'' p' ht'
        by_cases e : t' = t
        · subst e
          simp only [Function.update_self, Option.some.injEq, Prod.mk.injEq] at ht' ⊢
          obtain ⟨rfl, rfl⟩ := ht'
          exact ⟨K'', hrel, hok'⟩
        · simp only [Function.update_of_ne e] at ht' ⊢
          obtain ⟨K1, h1, h2⟩ := h.run t' f'' p' ht'
          have h3 := h1.other hf e
          refine ⟨K1, ⟨h3.cells, by simp only [Function.update_of_ne e]; exact h3.vars, h3.ph, h3.out, ?_⟩, h2⟩
          intro p q v hcs
          obtain ⟨h4, h5, h6, h7⟩ := h3.held p q v hcs
          rcases hreg with h8 | h8
          · rw [h8] at h4; cases h4; exact absurd rfl e
          · exact ⟨h4, h5, h6, by simp only [h8]; exact h7⟩
    rcases hlin with ⟨p, q, v, r', vars', hcs, hloc, rfl⟩ | ⟨vars', hcs, hloc, rfl⟩
    · obtain ⟨h1, h2, h3, h4⟩ := hr'.held _ _ _ hcs
      have hloc' : Spec.loc z.reg (z.vars t) f y r' vars' := by rw [h4, hr'.vars]; exact hloc
      refine ⟨y, _, by rw [← hp]; exact hr'.ph, ⟨r', vars', hloc', rfl⟩, key vars' r' hloc' (Or.inl h1) rfl ?_⟩
      refine ⟨hr'.cells, by simp, rfl, by simp, ?_⟩
      intro p' q' v' h
      simp only [Option.some.injEq, Prod.mk.injEq] at h
      obtain ⟨rfl, rfl, rfl⟩ := h
      exact ⟨h1, h2, h3, rfl⟩
    · have hloc' : Spec.loc z.reg (z.vars t) f y z.reg vars' := by rw [hr'.vars]; exact hloc _
      refine ⟨y, _, by rw [← hp]; exact hr'.ph, ⟨z.reg, vars', hloc', rfl⟩, key vars' z.reg hloc' (Or.inr rfl) rfl ?_⟩
      exact ⟨hr'.cells, by simp, rfl, hr'.out, by intro p q v h; simp only [hcs] at h; cases h⟩

/-! ### Rules for programs -/

/-- knowledge at the beginning of a call -/
def Know.start (f : Op) (vars : Nat → SP) : Know := ⟨ofUser vars, vars, none, .pending f⟩

theorem sim (hb : ∀ f vars, Ok f (body f) (Know.start f vars)) : Sim sys body Spec.call J where
  inv := by
    intro c z ph t f h ht
    obtain ⟨hi1, hi2⟩ := h.idle t ht
    refine ⟨hi1, h.exact_, h.free, ?_, ?_, ?_⟩
    · intro t' ht'
      by_cases e : t' = t
      · subst e; simp
      · simp only [Function.update_of_ne e]; exact h.held t' ht'
    · intro t' ht'
      by_cases e : t' = t
      · subst e; simp at ht'
      · simp only [Function.update_of_ne e] at ht' ⊢
        exact h.idle t' ht'
    · intro t' f' p' ht'
      by_cases e : t' = t
      · subst e
        simp only [Function.update_self, Option.some.injEq, Prod.mk.injEq] at ht' ⊢
        obtain ⟨rfl, rfl⟩ := ht'
        refine ⟨_, ⟨hi2, rfl, rfl, ?_, by intro _ _ _ h; cases h⟩, hb f (z.vars t')⟩
        intro _ hh; exact h.held t' hh ht
      · simp only [Function.update_of_ne e] at ht' ⊢
        exact h.run t' f' p' ht'
  act := by
    intro c z ph t f a k r s' h ht hd
    exact h.step ht hd
  ret := by
    intro c z ph t f y h ht
    obtain ⟨K, hr, h1, h2, h3⟩ := h.run t f _ ht
    refine ⟨by rw [hr.ph, h2], h.exact_, h.free, ?_, ?_, ?_⟩
    · intro t' ht'
      by_cases e : t' = t
      · subst e; exact absurd ht' (hr.out h1)
      · simp only [Function.update_of_ne e]; exact h.held t' ht'
    · intro t' ht'
      by_cases e : t' = t
      · subst e
        simp only [Function.update_self, true_and]
        rw [hr.cells, h3, hr.vars]
      · simp only [Function.update_of_ne e] at ht' ⊢
        exact h.idle t' ht'
    · intro t' f' p' ht'
      by_cases e : t' = t
      · subst e; simp at ht'
      · simp only [Function.update_of_ne e] at ht' ⊢
        exact h.run t' f' p' ht'

variable {f : Op} {K : Know} {cells : Var → SP} {vars : Nat → SP} {cs : Option (Nat × Nat × SP)} {ph : Phase Op Out}

theorem ok_lock {k : Unit → P Out} (h : ∀ v : SP, Ok f (k ()) ⟨cells, vars, some (v.ptr, v.ctl, v), ph⟩) :
    Ok f (.act .lock k) ⟨cells, vars, none, ph⟩ := by
  refine ⟨rfl, ?_⟩
  rintro r K' ⟨v, rfl⟩
  exact ⟨_, Or.inl rfl, h v⟩

theorem ok_unlock {k : Unit → P Out} {p q : Nat} {v : SP} (hv : v = ⟨p, q⟩) (h : Ok f (k ()) ⟨cells, vars, none, ph⟩) :
    Ok f (.act .unlock k) ⟨cells, vars, some (p, q, v), ph⟩ := by
  subst hv
  refine ⟨⟨p, q, rfl⟩, ?_⟩
  rintro r K' rfl
  exact ⟨_, Or.inl rfl, h⟩

theorem ok_rdPtr {k : Nat → P Out} {p q : Nat} {v : SP} (h : Ok f (k p) ⟨cells, vars, some (p, q, v), ph⟩) :
    Ok f (.act .rdPtr k) ⟨cells, vars, some (p, q, v), ph⟩ := by
  refine ⟨by simp [Pre], ?_⟩
  rintro r K' ⟨rfl, p', q', v', hcs, rfl⟩
  simp only [Option.some.injEq] at hcs
  obtain ⟨rfl, rfl, rfl⟩ := hcs
  exact ⟨_, Or.inl rfl, h⟩

theorem ok_rdCtl {k : Nat → P Out} {p q : Nat} {v : SP} (h : Ok f (k q) ⟨cells, vars, some (p, q, v), ph⟩) :
    Ok f (.act .rdCtl k) ⟨cells, vars, some (p, q, v), ph⟩ := by
  refine ⟨by simp [Pre], ?_⟩
  rintro r K' ⟨rfl, p', q', v', hcs, rfl⟩
  simp only [Option.some.injEq, Prod.mk.injEq] at hcs
  obtain ⟨rfl, rfl, rfl⟩ := hcs
  exact ⟨_, Or.inl rfl, h⟩

theorem ok_wrPtr {k : Unit → P Out} {x : Var} {p q : Nat} {v : SP} (h : Ok f (k ()) ⟨cells, vars, some ((cells x).ptr, q, v), ph⟩) :
    Ok f (.act (.wrPtr x) k) ⟨cells, vars, some (p, q, v), ph⟩ := by
  refine ⟨by simp [Pre], ?_⟩
  rintro r K' ⟨p', q', v', hcs, rfl⟩
  simp only [Option.some.injEq, Prod.mk.injEq] at hcs
  obtain ⟨rfl, rfl, rfl⟩ := hcs
  exact ⟨_, Or.inl rfl, h⟩

/-- the second write; the call takes effect here -/
theorem ok_wrCtl {k : Unit → P Out} {x : Var} {p' p q : Nat} {v : SP} {y : Out} {vars' : Nat → SP} {r' : SP}
    (hl : Spec.loc v vars f y r' vars')
    (h : Ok f (k ()) ⟨Function.update cells x ⟨p, q⟩, vars', some (p', (cells x).ctl, r'), .done f y⟩) :
    Ok f (.act (.wrCtl x p q) k) ⟨cells, vars, some (p', q, v), .pending f⟩ := by
  refine ⟨⟨p', v, rfl⟩, ?_⟩
  rintro r K' ⟨p'', q'', v'', hcs, rfl⟩
  simp only [Option.some.injEq, Prod.mk.injEq] at hcs
  obtain ⟨rfl, rfl, rfl⟩ := hcs
  exact ⟨_, Or.inr ⟨y, rfl, Or.inl ⟨_, _, _, r', vars', rfl, hl, rfl⟩⟩, h⟩

theorem ok_rd {k : SP → P Out} {x : Var} (h : Ok f (k (cells x)) ⟨cells, vars, cs, ph⟩) : Ok f (.act (.rd x) k) ⟨cells, vars, cs, ph⟩ := by
  refine ⟨trivial, ?_⟩
  rintro r K' ⟨rfl, rfl⟩
  exact ⟨_, Or.inl rfl, h⟩

/-- copying one of the thread's variables -/
theorem ok_acquire {k : Unit → P Out} {x y : Var} {p q : Nat} (hx : cells x = null) (hy : (cells y).ctl = q)
    (h : Ok f (k ()) ⟨Function.update cells x ⟨p, q⟩, vars, cs, ph⟩) : Ok f (.act (.acquire x p q) k) ⟨cells, vars, cs, ph⟩ := by
  refine ⟨⟨hx, Or.inl ⟨y, hy⟩⟩, ?_⟩
  rintro r K' rfl
  exact ⟨_, Or.inl rfl, h⟩

/-- copying `m_ptr`; the call takes effect here -/
theorem ok_acquireReg {k : Unit → P Out} {x : Var} {p' p q : Nat} {v : SP} {y : Out} {vars' : Nat → SP} {r' : SP} (hx : cells x = null)
    (hl : Spec.loc v vars f y r' vars')
    (h : Ok f (k ()) ⟨Function.update cells x ⟨p, q⟩, vars', some (p', q, r'), .done f y⟩) :
    Ok f (.act (.acquire x p q) k) ⟨cells, vars, some (p', q, v), .pending f⟩ := by
  refine ⟨⟨hx, Or.inr ⟨p', v, rfl⟩⟩, ?_⟩
  rintro r K' rfl
  exact ⟨_, Or.inr ⟨y, rfl, Or.inl ⟨_, _, _, r', vars', rfl, hl, rfl⟩⟩, h⟩

theorem ok_make {k : SP → P Out} {x : Var} (hx : cells x = null)
    (h : ∀ v : SP, v.ctl ≠ 0 → Ok f (k v) ⟨Function.update cells x v, vars, cs, ph⟩) : Ok f (.act (.make x) k) ⟨cells, vars, cs, ph⟩ := by
  refine ⟨hx, ?_⟩
  rintro r K' ⟨hq, rfl⟩
  exact ⟨_, Or.inl rfl, h r hq⟩

theorem ok_release {k : Unit → P Out} {x : Var} (h : Ok f (k ()) ⟨Function.update cells x null, vars, none, ph⟩) :
    Ok f (.act (.release x) k) ⟨cells, vars, none, ph⟩ := by
  refine ⟨fun h => absurd rfl h, ?_⟩
  rintro r K' rfl
  exact ⟨_, Or.inl rfl, h⟩

/-- releasing while holding the lock -/
theorem ok_releaseLocked {k : Unit → P Out} {x : Var} {mv : Bool} {e y : Nat}
    (h : Ok (.cas mv e y) (k ()) ⟨Function.update cells x null, vars, cs, .done (.cas mv e y) (.flag false)⟩) :
    Ok (.cas mv e y) (.act (.release x) k) ⟨cells, vars, cs, .done (.cas mv e y) (.flag false)⟩ := by
  refine ⟨fun _ => ⟨⟨mv, e, y, rfl⟩, rfl⟩, ?_⟩
  rintro r K' rfl
  exact ⟨_, Or.inl rfl, h⟩

theorem ok_move {k : Unit → P Out} {d x : Var} (hd : cells d = null) (hne : d ≠ x)
    (h : Ok f (k ()) ⟨Function.update (Function.update cells d (cells x)) x null, vars, cs, ph⟩) :
    Ok f (.act (.move d x) k) ⟨cells, vars, cs, ph⟩ := by
  refine ⟨⟨hd, hne⟩, ?_⟩
  rintro r K' rfl
  exact ⟨_, Or.inl rfl, h⟩

theorem ok_swap {k : Unit → P Out} {a b : Var} (hne : a ≠ b)
    (h : Ok f (k ()) ⟨Function.update (Function.update cells a (cells b)) b (cells a), vars, cs, ph⟩) :
    Ok f (.act (.swap a b) k) ⟨cells, vars, cs, ph⟩ := by
  refine ⟨hne, ?_⟩
  rintro r K' rfl
  exact ⟨_, Or.inl rfl, h⟩

/-- swapping; the call takes effect here -/
theorem ok_swapLin {k : Unit → P Out} {a b : Var} {y : Out} {vars' : Nat → SP} (hne : a ≠ b) (hl : ∀ v, Spec.loc v vars f y v vars')
    (h : Ok f (k ()) ⟨Function.update (Function.update cells a (cells b)) b (cells a), vars', none, .done f y⟩) :
    Ok f (.act (.swap a b) k) ⟨cells, vars, none, .pending f⟩ := by
  refine ⟨hne, ?_⟩
  rintro r K' rfl
  exact ⟨_, Or.inr ⟨y, rfl, Or.inr ⟨vars', rfl, hl, rfl⟩⟩, h⟩

/-- releasing; the call takes effect here -/
theorem ok_releaseLin {k : Unit → P Out} {x : Var} {y : Out} {vars' : Nat → SP} (hl : ∀ v, Spec.loc v vars f y v vars')
    (h : Ok f (k ()) ⟨Function.update cells x null, vars', none, .done f y⟩) : Ok f (.act (.release x) k) ⟨cells, vars, none, .pending f⟩ := by
  refine ⟨fun h => absurd rfl h, ?_⟩
  rintro r K' rfl
  exact ⟨_, Or.inr ⟨y, rfl, Or.inr ⟨vars', rfl, hl, rfl⟩⟩, h⟩

theorem ok_xchg {k : SP → P Out} {x : Var} {b : Nat} {y : SP → Out} {vars' : SP → Nat → SP} (hl : ∀ u v, Spec.loc v vars f (y u) v (vars' u))
    (h : ∀ u, Ok f (k u) ⟨Function.update cells x u, vars' u, none, .done f (y u)⟩) :
    Ok f (.act (.xchg x b) k) ⟨cells, vars, none, .pending f⟩ := by
  refine ⟨trivial, ?_⟩
  rintro r K' rfl
  exact ⟨_, Or.inr ⟨y r, rfl, Or.inr ⟨vars' r, rfl, hl r, rfl⟩⟩, h r⟩

/-- reading; the call takes effect here -/
theorem ok_rdLin {k : SP → P Out} {x : Var} {y : Out} {vars' : Nat → SP} (hl : ∀ v, Spec.loc v vars f y v vars')
    (h : Ok f (k (cells x)) ⟨cells, vars', none, .done f y⟩) : Ok f (.act (.rd x) k) ⟨cells, vars, none, .pending f⟩ := by
  refine ⟨trivial, ?_⟩
  rintro r K' ⟨rfl, rfl⟩
  exact ⟨_, Or.inr ⟨y, rfl, Or.inr ⟨vars', rfl, hl, rfl⟩⟩, h⟩

theorem ok_deref {k : Unit → P Out} {x : Var} (hx : (cells x).ctl ≠ 0) (h : Ok f (k ()) ⟨cells, vars, cs, ph⟩) :
    Ok f (.act (.deref x) k) ⟨cells, vars, cs, ph⟩ := by
  refine ⟨hx, ?_⟩
  rintro r K' rfl
  exact ⟨_, Or.inl rfl, h⟩

/-- the end: the thread's variables are those of the specification -/
theorem ok_ret {y : Out} (h : ∀ x, cells x = ofUser vars x) : Ok f (.ret y) ⟨cells, vars, none, .done f y⟩ := ⟨rfl, rfl, funext h⟩

theorem ok_ret' {y y' : Out} (hy : y' = y) (h : ∀ x, cells x = ofUser vars x) : Ok f (.ret y) ⟨cells, vars, none, .done f y'⟩ :=
  ⟨rfl, by rw [hy], funext h⟩

/-! ### The functions -/

theorem ok_load (d : Nat) (vars : Nat → SP) : Ok (.load d) (body (.load d)) (Know.start (.load d) vars) := by
  refine ok_lock fun v => ok_rdPtr (ok_rdCtl (ok_acquireReg rfl ⟨rfl, rfl, rfl⟩ (ok_unlock rfl (ok_rd ?_))))
  refine ok_move (by simp [ofUser]) (by simp) (ok_swap (by simp) (ok_release ?_))
  refine ok_ret fun x => ?_
  cases x <;> simp [ofUser, Function.update, Spec.put]

theorem ok_store (mv : Bool) (x : Nat) (vars : Nat → SP) : Ok (.store mv x) (body (.store mv x)) (Know.start (.store mv x) vars) := by
  cases mv with
  | true =>
    refine ok_move rfl (by simp) (ok_move (by simp [ofUser]) (by simp) (ok_lock fun v => ?_))
    refine ok_rdPtr (ok_wrPtr (ok_rdCtl (ok_wrCtl ⟨rfl, rfl, rfl⟩ (ok_unlock ?_ (ok_release (ok_release (ok_ret fun x => ?_)))))))
    · simp [ofUser]
    · cases x <;> simp [ofUser, Function.update, Spec.put, Spec.passed]
  | false =>
    refine ok_rd (ok_acquire (y := .user x) rfl rfl (ok_move (by simp [ofUser]) (by simp) (ok_lock fun v => ?_)))
    refine ok_rdPtr (ok_wrPtr (ok_rdCtl (ok_wrCtl ⟨rfl, rfl, rfl⟩ (ok_unlock ?_ (ok_release (ok_release (ok_ret fun x => ?_)))))))
    · simp [ofUser]
    · cases x <;> simp [ofUser, Function.update, Spec.passed]

theorem ok_exchange (mv : Bool) (d x : Nat) (vars : Nat → SP) :
    Ok (.exchange mv d x) (body (.exchange mv d x)) (Know.start (.exchange mv d x) vars) := by
  cases mv with
  | true =>
    refine ok_move rfl (by simp) (ok_move (by simp [ofUser]) (by simp) (ok_lock fun v => ?_))
    refine ok_rdPtr (ok_wrPtr (ok_rdCtl (ok_wrCtl ⟨rfl, rfl, rfl⟩ (ok_unlock ?_ ?_))))
    · simp [ofUser]
    · refine ok_move (by simp [ofUser]) (by simp) (ok_release (ok_rd ?_))
      refine ok_move (by simp [ofUser]) (by simp) (ok_swap (by simp) (ok_release (ok_release ?_)))
      refine ok_ret' (by simp) fun x => ?_
      cases x <;> simp [ofUser, Function.update, Spec.put, Spec.passed]
  | false =>
    refine ok_rd (ok_acquire (y := .user x) rfl rfl (ok_move (by simp [ofUser]) (by simp) (ok_lock fun v => ?_)))
    refine ok_rdPtr (ok_wrPtr (ok_rdCtl (ok_wrCtl ⟨rfl, rfl, rfl⟩ (ok_unlock ?_ ?_))))
    · simp [ofUser]
    · refine ok_move (by simp [ofUser]) (by simp) (ok_release (ok_rd ?_))
      refine ok_move (by simp [ofUser]) (by simp) (ok_swap (by simp) (ok_release (ok_release ?_)))
      refine ok_ret' (by simp) fun x => ?_
      cases x <;> simp [ofUser, Function.update, Spec.put, Spec.passed]

/-- the locked part of `compare_exchange` and what follows -/
theorem ok_casTail {mv : Bool} {e x : Nat} {vars vars1 : Nat → SP} {cells : Var → SP} (h1 : vars1 = Spec.passed vars mv x)
    (hc : ∀ v, cells v = if v = .prm2 then vars x else ofUser vars1 v) :
    Ok (.cas mv e x) (do let b ← holderCas (.user e); release .prm; return .flag b) ⟨cells, vars, none, .pending (.cas mv e x)⟩ := by
  subst h1
  refine ok_lock fun v => ok_rdPtr (ok_rd ?_)
  by_cases hv : v.ptr = (cells (.user e)).ptr
  · have hv' : v.ptr = (Spec.passed vars mv x e).ptr := by rw [hv, hc]; simp [ofUser]
    simp only [Prog.bind, if_pos hv]
    refine ok_rdPtr (ok_wrPtr (ok_rdCtl (ok_wrCtl (y := .flag true) (r' := vars x) (vars' := Spec.passed vars mv x) ?_ (ok_unlock ?_ ?_))))
    · simp only [Spec.loc, if_pos hv', and_self]
    · rw [hc]; simp
    · refine ok_release (ok_release (ok_ret fun y => ?_))
      cases y <;> simp [ofUser, hc]
  · have hv' : ¬ v.ptr = (Spec.passed vars mv x e).ptr := by rw [hc] at hv; simpa [ofUser] using hv
    simp only [Prog.bind, if_neg hv]
    refine ok_rdPtr (ok_rdCtl (ok_acquireReg (y := .flag false) (r' := v) (vars' := Spec.put (Spec.passed vars mv x) e v) ?_ ?_ ?_))
    · rw [hc]; simp [ofUser]
    · simp only [Spec.loc, if_neg hv', and_self]
    · refine ok_swap (by simp) (ok_releaseLocked (ok_unlock rfl (ok_release (ok_release (ok_ret fun y => ?_)))))
      cases y <;> simp [ofUser, hc, Function.update, Spec.put]

theorem ok_cas (mv : Bool) (e x : Nat) (vars : Nat → SP) : Ok (.cas mv e x) (body (.cas mv e x)) (Know.start (.cas mv e x) vars) := by
  cases mv with
  | true =>
    refine ok_move rfl (by simp) (ok_move (by simp [ofUser]) (by simp) (ok_casTail rfl ?_))
    intro y
    cases y <;> simp [ofUser, Function.update, Spec.put, Spec.passed]
  | false =>
    refine ok_rd (ok_acquire (y := .user x) rfl rfl (ok_move (by simp [ofUser]) (by simp) (ok_casTail rfl ?_)))
    intro y
    cases y <;> simp [ofUser, Function.update, Spec.passed]

theorem ok_body (f : Op) (vars : Nat → SP) : Ok f (body f) (Know.start f vars) := by
  cases f with
  | load d => exact ok_load d vars
  | store mv x => exact ok_store mv x vars
  | exchange mv d x => exact ok_exchange mv d x vars
  | cas mv e x => exact ok_cas mv e x vars
  | make d =>
    refine ok_make rfl fun v hv => ok_move (by simp [ofUser]) (by simp) (ok_swapLin (by simp) (fun _ => ⟨v, hv, rfl, rfl, rfl⟩) (ok_release (ok_ret fun x => ?_)))
    cases x <;> simp [ofUser, Function.update, Spec.put]
  | copy d x =>
    refine ok_rd (ok_acquire (y := .user x) rfl rfl (ok_swapLin (by simp) (fun _ => ⟨rfl, rfl, rfl⟩) (ok_release (ok_ret fun x => ?_))))
    cases x <;> simp [ofUser, Function.update, Spec.put]
  | aliased d x p =>
    refine ok_rd (ok_acquire (y := .user x) rfl rfl (ok_move (by simp [ofUser]) (by simp)
      (ok_swapLin (by simp) (fun _ => ⟨rfl, rfl, rfl⟩) (ok_release (ok_ret fun x => ?_)))))
    cases x <;> simp [ofUser, Function.update, Spec.put]
  | move d x =>
    refine ok_move rfl (by simp) (ok_swapLin (by simp) (fun _ => ⟨rfl, rfl, rfl⟩) (ok_release (ok_ret fun y => ?_)))
    cases y <;> simp [ofUser, Function.update, Spec.put]
  | reset d =>
    refine ok_releaseLin (fun _ => ⟨rfl, rfl, rfl⟩) (ok_ret fun x => ?_)
    cases x <;> simp [ofUser, Function.update, Spec.put]
  | use d =>
    refine ok_rdLin (y := .unit) (vars' := vars) (fun _ => ⟨rfl, rfl, rfl⟩) ?_
    show Ok _ (if (ofUser vars (.user d)).ctl = 0 then _ else _) _
    by_cases h : (ofUser vars (.user d)).ctl = 0
    · rw [if_pos h]
      exact ok_ret fun x => rfl
    · rw [if_neg h]
      exact ok_deref h (ok_ret fun x => rfl)
  | xchg d b =>
    refine ok_xchg (y := .ptr) (vars' := fun u => Spec.put vars d u) (fun u _ => ⟨u, rfl, rfl, rfl⟩) fun u => ok_ret fun x => ?_
    cases x <;> simp [ofUser, Function.update, Spec.put]

end Itlib.ASptr
