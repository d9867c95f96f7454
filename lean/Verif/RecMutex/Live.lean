import Verif.RecMutex.Props
import Verif.Conc.Live

/-!
# Calls on `strong_try_rec_mutex` return

`try_lock` and `unlock` wait for the internal mutex only, which is never kept: they return even while some thread owns the
mutex and does not unlock it.
-/
namespace Itlib.RecMutex
open Itlib.Conc

variable {max : Nat} {tr : List (Ev Op Bool)} {c : Config Act Act.Res St Op Bool}

/-- taking the internal mutex -/
def Takes (a : Act) : Prop := a = .lock
/-- giving it back -/
def Gives (a : Act) : Prop := a = .unlock

theorem acts : Acts sys Takes Gives St.holder where
  free := by rintro t a s rfl h; exact ⟨_, _, .lock s h⟩
  take := by rintro t a s r s' rfl h; cases h with | lock _ h => exact ⟨h, rfl⟩
  give := by rintro t a s r s' rfl h; cases h with | unlock => rfl
  rest := by
    intro t a s r s' h1 h2 h
    cases h with
    | lock => exact absurd rfl h1
    | unlock => exact absurd rfl h2
    | _ => rfl

/-- any other action -/
structure Other (a : Act) : Prop where
  lock : a ≠ .lock
  unlock : a ≠ .unlock

theorem o_lock {k : Act.lock.Res → P Bool} (hk : ∀ r, Held Takes Gives (k r)) : Conc.Out Takes Gives (.act .lock k) :=
  ⟨nofun, fun _ => hk, fun e => absurd rfl e⟩
theorem h_act {a : Act} {k : a.Res → P Bool} (h : Other a) (hk : ∀ r, Held Takes Gives (k r)) : Held Takes Gives (.act a k) :=
  ⟨h.lock, fun e => absurd e h.unlock, fun _ => hk⟩
theorem h_unlock {y : Bool} {k : Act.unlock.Res → P Bool} (hk : k () = .ret y) : Held Takes Gives (.act .unlock k) :=
  ⟨nofun, fun _ r => (by rw [show r = () from rfl, hk]; trivial), fun e => absurd rfl e⟩
theorem h_check {b : Bool} {p : Unit → P Bool} (h : Held Takes Gives (p ())) : Held Takes Gives (check b >>= p) := by
  cases b
  · exact h_act ⟨nofun, nofun⟩ nofun
  · exact h

theorem h_inc {p : P Bool} (h : Held Takes Gives p) : Held Takes Gives (incDepth max >>= fun _ => p) := by
  refine h_act ⟨nofun, nofun⟩ fun (d : Int) => ?_
  show Held Takes Gives ((check _ >>= fun _ => wrDepth (d + 1)) >>= fun _ => p)
  rw [Prog.bind_assoc]
  exact h_check (h_act ⟨nofun, nofun⟩ fun _ => h)

theorem h_dec {p : P Bool} (h : Held Takes Gives p) : Held Takes Gives (decDepth max >>= fun _ => p) := by
  refine h_act ⟨nofun, nofun⟩ fun (d : Int) => ?_
  show Held Takes Gives ((check _ >>= fun _ => wrDepth (d - 1)) >>= fun _ => p)
  rw [Prog.bind_assoc]
  exact h_check (h_act ⟨nofun, nofun⟩ fun _ => h)

theorem out_body (f : Op) : Conc.Out Takes Gives (body max f) := by
  cases f with
  | tryLock =>
    refine o_lock fun _ => h_act ⟨nofun, nofun⟩ fun (tid : Nat) => h_act ⟨nofun, nofun⟩ fun (o : Option Nat) => ?_
    show Held Takes Gives (if o = none then _ else _)
    split
    · refine h_act ⟨nofun, nofun⟩ fun (d : Int) => ?_
      exact h_check (h_act ⟨nofun, nofun⟩ fun _ => h_inc (h_unlock rfl))
    · refine h_act ⟨nofun, nofun⟩ fun (o : Option Nat) => ?_
      show Held Takes Gives (if some tid ≠ o then _ else _)
      split
      · exact h_unlock rfl
      · exact h_inc (h_unlock rfl)
  | unlock =>
    have key : ∀ d : Int, Held Takes Gives ((if d = 0 then do wrOwner none; unlockM else unlockM : P Unit) >>= fun _ => (return true : P Bool)) := by
      intro d
      split
      · exact h_act ⟨nofun, nofun⟩ fun _ => h_unlock rfl
      · exact h_unlock rfl
    refine o_lock fun _ => h_act ⟨nofun, nofun⟩ fun (o : Option Nat) => h_act ⟨nofun, nofun⟩ fun (tid : Nat) => ?_
    show Held Takes Gives ((check (decide (o = some tid)) >>= fun _ => rdDepth >>= fun d => check (decide (d > 0)) >>= fun _ => decDepth max >>= fun _ =>
      rdDepth >>= fun d => if d = 0 then do wrOwner none; unlockM else unlockM) >>= fun _ => (return true : P Bool))
    rw [Prog.bind_assoc]
    refine h_check (h_act ⟨nofun, nofun⟩ fun (d : Int) => ?_)
    show Held Takes Gives ((check (decide (d > 0)) >>= fun _ => decDepth max >>= fun _ =>
      rdDepth >>= fun d => if d = 0 then do wrOwner none; unlockM else unlockM) >>= fun _ => (return true : P Bool))
    rw [Prog.bind_assoc]
    refine h_check ?_
    rw [Prog.bind_assoc]
    exact h_dec (h_act ⟨nofun, nofun⟩ fun d => key d)

theorem bracketed (h : Exec sys (body max) initial tr c) : Bracketed Takes Gives St.holder c :=
  Bracketed.exec acts out_body ⟨fun t f p h => by simp [initial] at h, fun t h => by simp [initial] at h⟩ h

/-- the configurations that occur when the rules are followed -/
def Occurs (max : Nat) (c : Config Act Act.Res St Op Bool) : Prop := ∃ tr, Exec sys (body max) initial tr c ∧ Follows (Spec.Allowed max) tr

theorem waits : Conc.Lock sys (Occurs max) Takes St.holder :=
  acts.lock (by
    rintro c t f a k ⟨tr, h, hf⟩ ht ha
    cases a with
    | lock => exact absurd rfl ha
    | unlock => exact ⟨_, _, .unlock _⟩
    | getId => exact ⟨_, _, .getId _⟩
    | rdOwner => exact ⟨_, _, .rdOwner _⟩
    | wrOwner o => exact ⟨_, _, .wrOwner _ o⟩
    | rdDepth => exact ⟨_, _, .rdDepth _⟩
    | wrDepth d => exact ⟨_, _, .wrDepth _ d⟩
    | undef => exact absurd ⟨t, f, _, k, ht, trivial⟩ (C41_no_ub h hf)) fun c ⟨_, h, _⟩ => bracketed h

/-- While calls run, some call returns, under every weakly fair scheduler; whoever owns the mutex need not unlock it. -/
theorem C69_rec_mutex_some_call_returns (E : Forever sys (body max) initial) (hf : ∀ i, Follows (Spec.Allowed max) (E.tr i)) (hw : E.Weak)
    {i t : Nat} (ht : (E.at_ i).threads t ≠ none) : ∃ j t' f y, i ≤ j ∧ E.Returns t' j f y := by
  obtain ⟨⟨f, p⟩, hp⟩ := Option.ne_none_iff_exists'.mp ht
  refine waits.some_returns (fun i => ⟨_, E.exec i, hf i⟩) hw (fun i t f p hh hp => ?_) hp
  have := (bracketed (E.exec i)).run t f p hp
  rw [if_pos hh] at this
  exact this.noLock

/-- Every `try_lock` and every `unlock` returns, under every strongly fair scheduler. -/
theorem C69_rec_mutex_every_call_returns (E : Forever sys (body max) initial) (hf : ∀ i, Follows (Spec.Allowed max) (E.tr i)) (hs : E.Strong)
    {i t : Nat} {f : Op} {p : P Bool} (ht : (E.at_ i).threads t = some (f, p)) : ∃ j y, i ≤ j ∧ E.Returns t j f y :=
  waits.returns (fun i => ⟨_, E.exec i, hf i⟩) hs ht

/-! ### The hypotheses are met -/

/-- a strongly fair execution that follows the rules, in which thread 1 tries to lock while thread 0, which never unlocks, owns
the mutex -/
example (hm : 0 < max) : ∃ E : Forever sys (body max) initial, E.Strong ∧ (∀ i, Follows (Spec.Allowed max) (E.tr i)) ∧
    ∃ i p, (E.at_ i).threads 1 = some (.tryLock, p) ∧ (E.at_ i).shared.owner = some 0 := by
  have e0 := (Exec.start (sys := sys) (body := body max) (c₀ := initial)).call (t := 0) rfl .tryLock
  have hm' : (0 : Int) + 1 ≤ max := by omega
  simp only [body, tryLock, initial] at e0
  have e4 := ((((e0.goOn (.lock _ rfl)).goOn (.getId _)).goOn (.rdOwner _)).goOn (.rdDepth _)).goOn (.wrOwner _ _)
  have e5 := e4.goOn (.rdDepth _)
  replace e5 : Exec sys (body max) initial [.inv 0 .tryLock] ⟨⟨some 0, some 0, 0⟩, Function.update (fun _ => none) 0 (some (.tryLock,
    (do check (decide ((0 : Int) + 1 ≤ max)); wrDepth (0 + 1)) >>= fun _ => unlockM >>= fun _ => pure true))⟩ := e5
  simp only [decide_eq_true hm', check_true, Prog.pure_eq, Prog.ret_bind] at e5
  have e6 := ((e5.goOn (.wrDepth _ _)).goOn (.unlock _)).done
  have f0 := e6.call (t := 1) rfl .tryLock
  have f1 := Exec.start (sys := sys) (body := body max) (c₀ := ⟨⟨none, some 0, 0 + 1⟩,
    Function.update (Function.update (fun _ => none) 0 none) 1 (some (.tryLock, body max .tryLock))⟩)
  have f2 := ((((f1.goOn (.lock _ rfl)).goOn (.getId _)).goOn (.rdOwner _)).goOn (.rdOwner _)).goOn (.unlock _)
  have f3 := f2.done
  obtain ⟨E, h1, h2, i, hi⟩ := Forever.exists_strong f0 f3 (fun t => by
    by_cases h1 : t = 1
    · subst h1; simp
    · by_cases h0 : t = 0
      · subst h0; simp
      · simp [h1])
  refine ⟨E, h1, fun i => ?_, i, body max .tryLock, by rw [hi]; simp, by rw [hi]⟩
  obtain ⟨l, hl⟩ := h2 i
  refine Follows.init (tr' := l) ?_
  rw [hl]
  exact (example_exec hm).2.1

end Itlib.RecMutex
