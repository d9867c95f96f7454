import Verif.RecMutex.Props
import Verif.Conc.Hb

/-!
# `strong_try_rec_mutex` publishes

The only synchronisation in the code is that of the internal `std::mutex`: prior calls of its `unlock` synchronise with `lock`
([thread.mutex.requirements.mutex]).
-/
namespace Itlib.RecMutex
open Itlib.Conc

/-- everything that is done by threads using one mutex -/
abbrev Log := List (Done Act Act.Res Op Bool)

/-- what synchronises: `m_mutex.unlock()` with a later `m_mutex.lock()` -/
def Sync : What Act Act.Res Op Bool → What Act Act.Res Op Bool → Prop
  | .act .unlock _, .act .lock _ => True
  | _, _ => False

/-- the thread that does event `i` holds the `strong_try_rec_mutex` then: before it, more of its `try_lock`s returned `true` than
it had called `unlock` -/
def HeldAt (es : Log) (i : Nat) : Prop := ∃ t, By es i t ∧ Spec.Holds (trace (es.take i)) t

/-- the members with which the mutex is implemented -/
inductive Member where
  | owner
  | depth
deriving DecidableEq

/-- event `i` reads or writes a member -/
inductive Access (es : Log) (i : Nat) : Member → Bool → Prop where
  | rdOwner (r : Option Nat) (h : Is es i (.act .rdOwner r)) : Access es i .owner false
  | wrOwner (o : Option Nat) (h : Is es i (.act (.wrOwner o) ())) : Access es i .owner true
  | rdDepth (r : Int) (h : Is es i (.act .rdDepth r)) : Access es i .depth false
  | wrDepth (d : Int) (h : Is es i (.act (.wrDepth d) ())) : Access es i .depth true

/-- who knows of event `i` when nobody or thread `o` owns what protects it -/
def Passed (es : Log) (holder : Option Nat) (i : Nat) : Prop :=
  (holder = none → Upto Sync es (.act .unlock ()) i) ∧ ∀ t, holder = some t → Knows Sync es t i

/-- the same for events while the recursive mutex is held -/
def Pub (es : Log) (holder : Option Nat) (z : Spec.Z) (i : Nat) : Prop :=
  (∀ o d, z = some (o, d) → Knows Sync es o i) ∧ (z = none → Passed es holder i)

variable {max : Nat} {es : Log} {c : Config Act Act.Res St Op Bool} {z : Spec.Z} {i t : Nat}

theorem Passed.mono {h : Option Nat} (hp : Passed es h i) (e : Log) : Passed (es ++ e) h i :=
  ⟨fun hn => (hp.1 hn).mono, fun t ht => (hp.2 t ht).mono⟩

theorem Pub.mono {h : Option Nat} (hp : Pub es h z i) (e : Log) : Pub (es ++ e) h z i :=
  ⟨fun o d hz => (hp.1 o d hz).mono, fun hz => (hp.2 hz).mono e⟩

theorem Passed.step {s s' : St} {a : Act} {r : a.Res} (hp : Passed es s.holder i) (hb : ¬ Bad t a s) (hd : Does t a s r s') :
    Passed (es ++ [⟨t, .act a r⟩]) s'.holder i := by
  cases hd with
  | lock _ h => exact ⟨fun h => (by cases h), fun t' ht => by cases ht; exact (hp.1 h).learn trivial⟩
  | unlock _ =>
    simp only [Bad, ne_eq, not_not] at hb
    exact ⟨fun _ => (hp.2 t hb).upto, fun t' ht => by cases ht⟩
  | getId _ => exact hp.mono _
  | rdOwner _ => exact hp.mono _
  | wrOwner _ _ => exact hp.mono _
  | rdDepth _ => exact hp.mono _
  | wrDepth _ _ => exact hp.mono _

theorem Pub.step {s s' : St} {a : Act} {r : a.Res} (hp : Pub es s.holder z i) (hb : ¬ Bad t a s) (hd : Does t a s r s') :
    Pub (es ++ [⟨t, .act a r⟩]) s'.holder z i :=
  ⟨fun o d hz => (hp.1 o d hz).mono, fun hz => (hp.2 hz).step hb hd⟩

/-- a call takes effect while its thread holds the internal mutex -/
theorem Pub.lin {z' : Spec.Z} {f : Op} {y : Bool} (hp : Pub es (some t) z i) (hc : Spec.call z (t, f, y) z') : Pub es (some t) z' i := by
  have me : Knows Sync es t i → Pub es (some t) z' i ∨ ∃ o d, z' = some (o, d) ∧ o ≠ t := by
    intro hk
    cases z' with
    | none => exact Or.inl ⟨fun o d h => (by cases h), fun _ => ⟨fun h => (by cases h), fun t' h => by cases h; exact hk⟩⟩
    | some p =>
      obtain ⟨o, d⟩ := p
      by_cases e : o = t
      · subst e; exact Or.inl ⟨fun o d h => (by cases h; exact hk), fun h => (by cases h)⟩
      · exact Or.inr ⟨o, d, rfl, e⟩
  cases f with
  | tryLock =>
    cases z with
    | none =>
      obtain ⟨rfl, rfl⟩ := hc
      exact ⟨fun o d h => (by cases h; exact (hp.2 rfl).2 _ rfl), fun h => (by cases h)⟩
    | some p =>
      obtain ⟨o, d⟩ := p
      simp only [Spec.call] at hc
      have hk := hp.1 o d rfl
      split at hc
      · obtain ⟨-, rfl⟩ := hc; exact ⟨fun o d h => (by cases h; exact hk), fun h => (by cases h)⟩
      · obtain ⟨-, rfl⟩ := hc; exact hp
  | unlock =>
    cases z with
    | none => exact hc.elim
    | some p =>
      obtain ⟨o, d⟩ := p
      obtain ⟨rfl, -, rfl⟩ := hc
      rcases me (hp.1 o d rfl) with h | ⟨o', d', h, h'⟩
      · exact h
      · split at h
        · cases h
        · cases h; exact absurd rfl h'

theorem held_old {e : Log} (h : HeldAt (es ++ e) i) (hi : i < es.length) : HeldAt es i := by
  obtain ⟨t, ⟨w, h1⟩, h2⟩ := h
  rw [List.getElem?_append_left hi] at h1
  rw [List.take_append_of_le_length (Nat.le_of_lt hi)] at h2
  exact ⟨t, ⟨w, h1⟩, h2⟩

theorem held_new {e : Done Act Act.Res Op Bool} (h : HeldAt (es ++ [e]) es.length) : Spec.Holds (trace es) e.tid := by
  obtain ⟨t, h1, h2⟩ := h
  rw [by_new] at h1
  subst h1
  simpa using h2

theorem levels_pos (h : 0 < Spec.levels z t) : ∃ d, z = some (t, d) := by
  cases z with
  | none => simp [Spec.levels] at h
  | some p =>
    obtain ⟨o, d⟩ := p
    simp only [Spec.levels] at h
    split at h
    · subst_vars; exact ⟨d, rfl⟩
    · omega

/-- the new event, done by a thread that owns the mutex -/
theorem Pub.new {h : Option Nat} {w : What Act Act.Res Op Bool} (hz : 0 < Spec.levels z t) : Pub (es ++ [⟨t, w⟩]) h z es.length := by
  obtain ⟨d, rfl⟩ := levels_pos hz
  exact ⟨fun o d h => (by cases h; exact knows_new), fun h => (by cases h)⟩

theorem Passed.new {w : What Act Act.Res Op Bool} : Passed (es ++ [⟨t, w⟩]) (some t) es.length :=
  ⟨fun h => (by cases h), fun t' h => (by cases h; exact knows_new)⟩

theorem access_cases {e : Done Act Act.Res Op Bool} {m : Member} {b : Bool} (h : Access (es ++ [e]) i m b) :
    Access es i m b ∨ i = es.length ∧
      ((∃ r, e.what = .act .rdOwner r) ∨ (∃ o, e.what = .act (.wrOwner o) ()) ∨ (∃ r, e.what = .act .rdDepth r) ∨ ∃ d, e.what = .act (.wrDepth d) ()) := by
  cases h with
  | rdOwner r h => exact (is_cases h).imp (.rdOwner r) fun h => ⟨h.1, .inl ⟨r, h.2⟩⟩
  | wrOwner o h => exact (is_cases h).imp (.wrOwner o) fun h => ⟨h.1, .inr (.inl ⟨o, h.2⟩)⟩
  | rdDepth r h => exact (is_cases h).imp (.rdDepth r) fun h => ⟨h.1, .inr (.inr (.inl ⟨r, h.2⟩))⟩
  | wrDepth d h => exact (is_cases h).imp (.wrDepth d) fun h => ⟨h.1, .inr (.inr (.inr ⟨d, h.2⟩))⟩

theorem Access.lt {m : Member} {b : Bool} (h : Access es i m b) : i < es.length := by
  cases h with
  | rdOwner r h => exact h.lt
  | wrOwner o h => exact h.lt
  | rdDepth r h => exact h.lt
  | wrDepth d h => exact h.lt

theorem HeldAt.lt (h : HeldAt es i) : i < es.length := by
  obtain ⟨t, h, -⟩ := h; exact h.lt

/-- an access to a member is done by the holder of the internal mutex, before and after it -/
theorem access_holder {a : Act} {r : a.Res} {s s' : St} (hb : ¬ Bad t a s) (hd : Does t a s r s')
    (h : (∃ r', (What.act a r : What Act Act.Res Op Bool) = .act .rdOwner r') ∨ (∃ o, (What.act a r : What Act Act.Res Op Bool) = .act (.wrOwner o) ()) ∨
      (∃ r', (What.act a r : What Act Act.Res Op Bool) = .act .rdDepth r') ∨ ∃ d, (What.act a r : What Act Act.Res Op Bool) = .act (.wrDepth d) ()) :
    s.holder = some t ∧ s'.holder = some t := by
  cases hd with
  | lock _ h1 => rcases h with ⟨_, h⟩ | ⟨_, h⟩ | ⟨_, h⟩ | ⟨_, h⟩ <;> cases h
  | unlock _ => rcases h with ⟨_, h⟩ | ⟨_, h⟩ | ⟨_, h⟩ | ⟨_, h⟩ <;> cases h
  | getId _ => rcases h with ⟨_, h⟩ | ⟨_, h⟩ | ⟨_, h⟩ | ⟨_, h⟩ <;> cases h
  | rdOwner _ => simp only [Bad, ne_eq, not_not] at hb; exact ⟨hb, hb⟩
  | wrOwner _ _ => simp only [Bad, ne_eq, not_not] at hb; exact ⟨hb, hb⟩
  | rdDepth _ => simp only [Bad, ne_eq, not_not] at hb; exact ⟨hb, hb⟩
  | wrDepth _ _ => simp only [Bad, ne_eq, not_not] at hb; exact ⟨hb, hb⟩

/-- what holds after every execution -/
structure Inv (es : Log) (c : Config Act Act.Res St Op Bool) (z : Spec.Z) (ph : Nat → Phase Op Bool) : Prop where
  j : J (trace es) c z ph
  pub : ∀ i, HeldAt es i → Pub es c.shared.holder z i
  mem : ∀ i m b, Access es i m b → Passed es c.shared.holder i
  ordered : ∀ i k, i < k → HeldAt es i → HeldAt es k → Hb Sync es i k
  race : ∀ i k m b m' b', i < k → Access es i m b → Access es k m' b' → Hb Sync es i k

theorem holds_of_J {tr : List (Ev Op Bool)} {ph : Nat → Phase Op Bool} (hj : J tr c z ph) (h : Spec.Holds tr t) : ∃ d, z = some (t, d) :=
  levels_pos (holds_levels hj h)

theorem Inv.grow {ph ph' : Nat → Phase Op Bool} {z' : Spec.Z} {c' : Config Act Act.Res St Op Bool} {w : What Act Act.Res Op Bool}
    (h : Inv es c z ph) (hj : J (trace (es ++ [⟨t, w⟩])) c' z' ph')
    (hz : Spec.Holds (trace es) t → 0 < Spec.levels z' t)
    (hp : ∀ i, Pub es c.shared.holder z i → Pub (es ++ [⟨t, w⟩]) c'.shared.holder z' i)
    (hm : ∀ i, Passed es c.shared.holder i → Passed (es ++ [⟨t, w⟩]) c'.shared.holder i)
    (hw : (∃ r, w = .act .rdOwner r) ∨ (∃ o, w = .act (.wrOwner o) ()) ∨ (∃ r, w = .act .rdDepth r) ∨ (∃ d, w = .act (.wrDepth d) ()) →
      c.shared.holder = some t ∧ c'.shared.holder = some t) :
    Inv (es ++ [⟨t, w⟩]) c' z' ph' := by
  have old : ∀ i, HeldAt (es ++ [⟨t, w⟩]) i → HeldAt es i ∨ i = es.length ∧ Spec.Holds (trace es) t := by
    intro i hi
    have := hi.lt
    simp only [List.length_append, List.length_singleton] at this
    by_cases e : i < es.length
    · exact Or.inl (held_old hi e)
    · have : i = es.length := by omega
      subst this
      exact Or.inr ⟨rfl, held_new hi⟩
  refine ⟨hj, fun i hi => ?_, fun i m b hi => ?_, fun i k hik hi hk => ?_, fun i k m b m' b' hik hi hk => ?_⟩
  · rcases old i hi with hi | ⟨rfl, hn⟩
    · exact hp i (h.pub i hi)
    · exact Pub.new (hz hn)
  · rcases access_cases hi with hi | ⟨rfl, hn⟩
    · exact hm i (h.mem i m b hi)
    · rw [(hw hn).2]; exact Passed.new
  · rcases old k hk with hk | ⟨rfl, hn⟩
    · rcases old i hi with hi | ⟨rfl, -⟩
      · exact (h.ordered i k hik hi hk).mono
      · have := hk.lt; omega
    · rcases old i hi with hi | ⟨rfl, -⟩
      · obtain ⟨d, e⟩ := holds_of_J h.j hn
        exact ((h.pub i hi).1 t d e).next
      · omega
  · rcases access_cases hk with hk | ⟨rfl, hn⟩
    · rcases access_cases hi with hi | ⟨rfl, -⟩
      · exact (h.race i k m b m' b' hik hi hk).mono
      · have := hk.lt; omega
    · rcases access_cases hi with hi | ⟨rfl, -⟩
      · exact ((h.mem i m b hi).2 t (hw hn).1).next
      · omega

theorem inv_run (h : Run sys (body max) initial es c) (ha : Follows (Spec.Allowed max) (trace es)) : ∃ z ph, Inv es c z ph := by
  have no : ∀ {w : What Act Act.Res Op Bool} {P : Prop}, (∀ a r, w ≠ .act a r) →
      (∃ r, w = .act .rdOwner r) ∨ (∃ o, w = .act (.wrOwner o) ()) ∨ (∃ r, w = .act .rdDepth r) ∨ (∃ d, w = .act (.wrDepth d) ()) → P := by
    intro w P hw h
    rcases h with ⟨_, h⟩ | ⟨_, h⟩ | ⟨_, h⟩ | ⟨_, h⟩ <;> exact absurd h (hw _ _)
  induction h with
  | start =>
    refine ⟨none, _, J_initial, fun i h => ?_, fun i m b h => ?_, fun i k _ h => ?_, fun i k m b _ _ _ h => ?_⟩
    · have := h.lt; simp at this
    · have := h.lt; simp at this
    · have := h.lt; simp at this
    · have := h.lt; simp at this
  | @inv es c h t f ht ih =>
    rw [trace_append] at ha
    obtain ⟨z, ph, hi⟩ := ih ha.init
    obtain ⟨-, hj⟩ := (sim (ok_body max)).inv _ _ _ _ t f hi.j ht (ha _ _ _ [] (by simp [trace]))
    refine ⟨z, _, hi.grow (by rw [trace_append]; exact hj) (fun h => ?_) (fun i h => h.mono _) (fun i h => h.mono _) (no (by simp))⟩
    exact holds_levels hi.j h
  | @act es c h t f a k r s' ht hs ih =>
    rw [trace_append] at ha
    obtain ⟨z, ph, hi⟩ := ih ha.init
    have hb : ¬ Bad t a c.shared := fun hb => C41_no_ub h.exec ha.init ⟨t, f, a, k, ht, hb⟩
    rcases hi.j.step ht hs with hj | ⟨y, z', hh, -, hc, hj⟩
    · exact ⟨z, ph, hi.grow (by rw [trace_append]; simpa [trace] using hj) (fun h => holds_levels hi.j h) (fun i h => h.step hb hs)
        (fun i h => h.step hb hs) (access_holder hb hs)⟩
    · refine ⟨z', _, hi.grow (by rw [trace_append]; simpa [trace] using hj) (fun h => holds_levels hj h) (fun i h => ?_)
        (fun i h => h.step hb hs) (access_holder hb hs)⟩
      have := h.step hb hs
      simp only [hh] at this ⊢
      exact this.lin hc
  | @ret es c h t f y ht ih =>
    rw [trace_append] at ha
    obtain ⟨z, ph, hi⟩ := ih ha.init
    obtain ⟨-, hj⟩ := (sim (ok_body max)).ret _ _ _ _ t f y hi.j ht
    refine ⟨z, _, hi.grow (by rw [trace_append]; exact hj) (fun h => ?_) (fun i h => h.mono _) (fun i h => h.mono _) (no (by simp))⟩
    exact holds_levels hi.j h
  | @own es c h t ht ih =>
    rw [trace_append] at ha
    obtain ⟨z, ph, hi⟩ := ih ha.init
    refine ⟨z, _, hi.grow (by rw [trace_append]; simpa [trace] using hi.j) (fun h => ?_) (fun i h => h.mono _) (fun i h => h.mono _) (no (by simp))⟩
    exact holds_levels hi.j h

/-- Whatever a thread does while it holds the mutex happens before whatever any thread does while it holds the mutex later. -/
theorem C62_rec_mutex_publishes (h : Run sys (body max) initial es c) (ha : Follows (Spec.Allowed max) (trace es)) {k : Nat} (hik : i < k)
    (hi : HeldAt es i) (hk : HeldAt es k) : Hb Sync es i k := by
  obtain ⟨z, ph, hI⟩ := inv_run h ha
  exact hI.ordered i k hik hi hk

/-- The members of the mutex are accessed without data races, also by failing `try_lock`s. -/
theorem C62_rec_mutex_members (h : Run sys (body max) initial es c) (ha : Follows (Spec.Allowed max) (trace es)) {k : Nat} {m : Member}
    {b b' : Bool} (hik : i ≠ k) (hi : Access es i m b) (hk : Access es k m b') : Hb Sync es i k ∨ Hb Sync es k i := by
  obtain ⟨z, ph, hI⟩ := inv_run h ha
  rcases Nat.lt_or_gt_of_ne hik with hl | hl
  · exact Or.inl (hI.race i k m b m b' hl hi hk)
  · exact Or.inr (hI.race k i m b' m b hl hk hi)

/-! ### A concrete case -/

/-- the log: thread 0 locks, does something, and unlocks; then thread 1 locks and does something -/
def exampleLog : Log := [⟨0, .inv .tryLock⟩, ⟨0, .act .lock ()⟩, ⟨0, .act .getId (0 : Nat)⟩, ⟨0, .act .rdOwner (none : Option Nat)⟩,
  ⟨0, .act .rdDepth (0 : Int)⟩, ⟨0, .act (.wrOwner (some 0)) ()⟩, ⟨0, .act .rdDepth (0 : Int)⟩, ⟨0, .act (.wrDepth 1) ()⟩,
  ⟨0, .act .unlock ()⟩, ⟨0, .ret .tryLock true⟩, ⟨0, .own⟩, ⟨0, .inv .unlock⟩, ⟨0, .act .lock ()⟩,
  ⟨0, .act .rdOwner (some 0 : Option Nat)⟩, ⟨0, .act .getId (0 : Nat)⟩, ⟨0, .act .rdDepth (1 : Int)⟩, ⟨0, .act .rdDepth (1 : Int)⟩,
  ⟨0, .act (.wrDepth 0) ()⟩, ⟨0, .act .rdDepth (0 : Int)⟩, ⟨0, .act (.wrOwner none) ()⟩, ⟨0, .act .unlock ()⟩, ⟨0, .ret .unlock true⟩,
  ⟨1, .inv .tryLock⟩, ⟨1, .act .lock ()⟩, ⟨1, .act .getId (1 : Nat)⟩, ⟨1, .act .rdOwner (none : Option Nat)⟩,
  ⟨1, .act .rdDepth (0 : Int)⟩, ⟨1, .act (.wrOwner (some 1)) ()⟩, ⟨1, .act .rdDepth (0 : Int)⟩, ⟨1, .act (.wrDepth 1) ()⟩,
  ⟨1, .act .unlock ()⟩, ⟨1, .ret .tryLock true⟩, ⟨1, .own⟩]

theorem example_run : ∃ c, Run sys (body 5) initial exampleLog c := by
  have e0 := (Run.start (sys := sys) (body := body 5) (c₀ := initial)).inv 0 .tryLock rfl
  have e1 := (((((e0.goOn (.lock _ rfl)).goOn (.getId _)).goOn (.rdOwner _)).goOn (.rdDepth _)).goOn (.wrOwner _ _)).goOn (.rdDepth _)
  have e2 := (((e1.goOn (.wrDepth _ _)).goOn (.unlock _)).done).own 0 (by simp)
  have u0 := e2.inv 0 .unlock (by simp)
  have u1 := ((((u0.goOn (.lock _ rfl)).goOn (.rdOwner _)).goOn (.getId _)).goOn (.rdDepth _)).goOn (.rdDepth _)
  have u2 := (((u1.goOn (.wrDepth _ _)).goOn (.rdDepth _)).goOn (.wrOwner _ _)).goOn (.unlock _)
  have u3 := u2.done
  have f0 := u3.inv 1 .tryLock (by simp [initial])
  have f1 := (((((f0.goOn (.lock _ rfl)).goOn (.getId _)).goOn (.rdOwner _)).goOn (.rdDepth _)).goOn (.wrOwner _ _)).goOn (.rdDepth _)
  have f2 := (((f1.goOn (.wrDepth _ _)).goOn (.unlock _)).done).own 1 (by simp)
  exact ⟨_, f2⟩

/-- what both threads do between the calls is ordered -/
example : Hb Sync exampleLog 10 32 := by
  obtain ⟨c, h⟩ := example_run
  refine C62_rec_mutex_publishes h ?_ (by decide) ⟨0, ⟨.own, rfl⟩, ?_⟩ ⟨1, ⟨.own, rfl⟩, ?_⟩
  · intro p t f q e
    rcases p with _ | ⟨_, _ | ⟨_, _ | ⟨_, _ | ⟨_, _ | ⟨_, _ | ⟨_, p⟩⟩⟩⟩⟩⟩ <;> simp [exampleLog, trace] at e
    · obtain ⟨⟨rfl, rfl⟩, -⟩ := e; simp [Spec.Allowed, Spec.locks, Spec.unlocks]
    · obtain ⟨rfl, rfl, ⟨rfl, rfl⟩, -⟩ := e; simp [Spec.Allowed, Spec.locks, Spec.unlocks]
    · obtain ⟨rfl, rfl, rfl, rfl, ⟨rfl, rfl⟩, -⟩ := e; simp [Spec.Allowed, Spec.locks, Spec.unlocks]
  · simp [Spec.Holds, exampleLog, trace, Spec.locks, Spec.unlocks]
  · simp [Spec.Holds, exampleLog, trace, Spec.locks, Spec.unlocks]

end Itlib.RecMutex
