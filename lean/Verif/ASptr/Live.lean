import Verif.ASptr.Props
import Verif.Conc.Live

/-!
# Calls on `atomic_shared_ptr_storage` return

Under weak fairness some call returns, under strong fairness every call; weak fairness does not suffice for every call, because
the spin lock (atomic_shared_ptr_storage.hpp:68-76) does not queue.
-/
namespace Itlib.ASptr
open Itlib.Conc

variable {v₀ : SP} {tr : List (Ev Op Out)} {c : Config Act Act.Res St Op Out}

/-- taking the lock -/
def Takes (a : Act) : Prop := a = .lock
/-- giving it back -/
def Gives (a : Act) : Prop := a = .unlock

theorem acts : Acts sys Takes Gives St.holder where
  free := by rintro t a s rfl h; exact ⟨_, _, .lock s h⟩
  take := by rintro t a s r s' rfl h; cases h with | lock _ h => exact ⟨h, rfl⟩
  give := by rintro t a s r s' rfl h; cases h with | unlock => rfl
  rest := by
    intro t a s r s' h1 h2 h
    cases h with
    | lock => exact absurd rfl h1
    | unlock => exact absurd rfl h2
    | acquire _ x p q => simp only [St.set, St.inc]; split <;> rfl
    | make _ x v _ _ => simp only [St.set, St.inc]; split <;> rfl
    | release _ x => simp only [St.set, St.dec]; split <;> rfl
    | _ => rfl

/-- any other action -/
structure Other (a : Act) : Prop where
  lock : a ≠ .lock
  unlock : a ≠ .unlock

theorem o_act {a : Act} {k : a.Res → P Out} (h : Other a) (hk : ∀ r, Conc.Out Takes Gives (k r)) : Conc.Out Takes Gives (.act a k) :=
  ⟨h.unlock, fun e => absurd e h.lock, fun _ => hk⟩
theorem o_lock {k : Act.lock.Res → P Out} (hk : ∀ r, Held Takes Gives (k r)) : Conc.Out Takes Gives (.act .lock k) :=
  ⟨nofun, fun _ => hk, fun e => absurd rfl e⟩
theorem h_act {a : Act} {k : a.Res → P Out} (h : Other a) (hk : ∀ r, Held Takes Gives (k r)) : Held Takes Gives (.act a k) :=
  ⟨h.lock, fun e => absurd e h.unlock, fun _ => hk⟩
theorem h_unlock {k : Act.unlock.Res → P Out} (hk : ∀ r, NoLock (fun a => Takes a ∨ Gives a) (k r)) : Held Takes Gives (.act .unlock k) :=
  ⟨nofun, fun _ => hk, fun e => absurd rfl e⟩
theorem n_act {a : Act} {k : a.Res → P Out} (h : Other a) (hk : ∀ r, NoLock (fun a => Takes a ∨ Gives a) (k r)) :
    NoLock (fun a => Takes a ∨ Gives a) (.act a k) := ⟨fun e => e.elim h.lock h.unlock, hk⟩

/-- follows the code -/
macro "brackets" : tactic => `(tactic| repeat' (first | trivial | exact Other.mk nofun nofun | intro _ | apply o_lock | apply h_unlock | apply o_act | apply h_act | apply n_act))

theorem out_body (f : Op) : Conc.Out Takes Gives (body f) := by
  cases f with
  | load d => brackets
  | store mv x => cases mv <;> brackets
  | exchange mv d x => cases mv <;> brackets
  | cas mv e x =>
    have key : ∀ (p : Nat) (v : SP), Held Takes Gives
        ((if p = v.ptr then (do swapReg .prm2; unlock; release .prm2; return true)
          else (do copyReg .tmp; swap .tmp (.user e); release .tmp; unlock; release .prm2; return false) : P Bool) >>= fun b => do
            release .prm; return Out.flag b) := by
      intro p v
      split <;> brackets
    cases mv
    · refine o_act ⟨nofun, nofun⟩ fun _ => o_act ⟨nofun, nofun⟩ fun _ => o_act ⟨nofun, nofun⟩ fun _ => o_lock fun _ => ?_
      exact h_act ⟨nofun, nofun⟩ fun p => h_act ⟨nofun, nofun⟩ fun v => key p v
    · refine o_act ⟨nofun, nofun⟩ fun _ => o_act ⟨nofun, nofun⟩ fun _ => o_lock fun _ => ?_
      exact h_act ⟨nofun, nofun⟩ fun p => h_act ⟨nofun, nofun⟩ fun v => key p v
  | use d =>
    refine o_act ⟨nofun, nofun⟩ fun (v : SP) => ?_
    show Conc.Out Takes Gives (if v.ctl = 0 then (.ret .unit : P Out) else .act (.deref (.user d)) fun _ => .ret .unit)
    split <;> brackets
  | _ => brackets

theorem bracketed (h : Exec sys body (initial v₀) tr c) : Bracketed Takes Gives St.holder c :=
  Bracketed.exec acts out_body ⟨fun t f p h => by simp [initial] at h, fun t h => by simp [initial] at h⟩ h

/-- the configurations that occur -/
def Occurs (v₀ : SP) (c : Config Act Act.Res St Op Out) : Prop := ∃ tr, Exec sys body (initial v₀) tr c

theorem waits : Conc.Lock sys (Occurs v₀) Takes St.holder :=
  acts.lock (by
    rintro c t f a k ⟨tr, h⟩ ht ha
    obtain ⟨q₀, hq₀, hc₀⟩ := fresh h
    cases a with
    | lock => exact absurd rfl ha
    | unlock => exact ⟨_, _, .unlock _⟩
    | rdPtr => exact ⟨_, _, .rdPtr _⟩
    | rdCtl => exact ⟨_, _, .rdCtl _⟩
    | wrPtr x => exact ⟨_, _, .wrPtr _ x⟩
    | wrCtl x p q => exact ⟨_, _, .wrCtl _ x p q⟩
    | rd x => exact ⟨_, _, .rd _ x⟩
    | acquire x p q => exact ⟨_, _, .acquire _ x p q⟩
    | make x => exact ⟨_, _, .make _ x ⟨q₀, q₀⟩ hq₀ hc₀⟩
    | release x => exact ⟨_, _, .release _ x⟩
    | move d x => exact ⟨_, _, .move _ d x⟩
    | swap a b => exact ⟨_, _, .swap _ a b⟩
    | deref x => exact ⟨_, _, .deref _ x⟩
    | xchg x b => exact ⟨_, _, .xchg _ x b⟩) fun c ⟨_, h⟩ => bracketed h

/-- While calls run, some call returns: the storage as a whole makes progress under every weakly fair scheduler. -/
theorem C69_storage_some_call_returns (E : Forever sys body (initial v₀)) (hw : E.Weak) {i t : Nat}
    (ht : (E.at_ i).threads t ≠ none) : ∃ j t' f y, i ≤ j ∧ E.Returns t' j f y := by
  obtain ⟨⟨f, p⟩, hp⟩ := Option.ne_none_iff_exists'.mp ht
  refine waits.some_returns (fun i => ⟨_, E.exec i⟩) hw (fun i t f p hh hp => ?_) hp
  have := (bracketed (E.exec i)).run t f p hp
  rw [if_pos hh] at this
  exact this.noLock

/-- Every call returns under every strongly fair scheduler. -/
theorem C69_storage_every_call_returns (E : Forever sys body (initial v₀)) (hs : E.Strong) {i t : Nat} {f : Op} {p : P Out}
    (ht : (E.at_ i).threads t = some (f, p)) : ∃ j y, i ≤ j ∧ E.Returns t j f y :=
  waits.returns (fun i => ⟨_, E.exec i⟩) hs ht

/-- The lock is never kept: it becomes free again and again. -/
theorem C69_storage_lock_released (E : Forever sys body (initial v₀)) (hw : E.Weak) (i : Nat) :
    ∃ j, i ≤ j ∧ (E.at_ j).shared.holder = none := waits.released (fun i => ⟨_, E.exec i⟩) hw i

/-- what touches only the variables of the thread -/
def Local : Op → Prop
  | .load _ | .store _ _ | .exchange _ _ _ | .cas _ _ _ => False
  | _ => True

/-- Calls that do not use the storage do not wait for it. -/
theorem C69_local_calls_return (E : Forever sys body (initial v₀)) (hw : E.Weak) {i t : Nat} {f : Op}
    (hf : Local f) (ht : (E.at_ i).threads t = some (f, body f)) : ∃ j y, i ≤ j ∧ E.Returns t j f y := by
  have key : NoLock (fun a => Takes a ∨ Gives a) (body f) := by
    cases f with
    | load | store | exchange | cas => exact absurd hf (by simp [Local])
    | use d =>
      refine n_act ⟨nofun, nofun⟩ fun (v : SP) => ?_
      show NoLock _ (if v.ctl = 0 then (.ret .unit : P Out) else .act (.deref (.user d)) fun _ => .ret .unit)
      split <;> brackets
    | _ => brackets
  exact waits.returns_noLock (fun i => ⟨_, E.exec i⟩) hw ht (key.mono fun a h => Or.inl h)

/-! ### Weak fairness does not suffice for every call -/

/-- the code of `load` after `n` actions, all pointers being null -/
def rem : Nat → P Out
  | 0 => load 0
  | 1 => do copyReg .res; unlock; let v ← rd .res; moveAssign (.user 0) .res; return .ptr v
  | 2 => do let q ← rdCtl; acquire .res 0 q; unlock; let v ← rd .res; moveAssign (.user 0) .res; return .ptr v
  | 3 => do acquire .res 0 0; unlock; let v ← rd .res; moveAssign (.user 0) .res; return .ptr v
  | 4 => do unlock; let v ← rd .res; moveAssign (.user 0) .res; return .ptr v
  | 5 => do let v ← rd .res; moveAssign (.user 0) .res; return .ptr v
  | 6 => do moveAssign (.user 0) .res; return .ptr null
  | 7 => do swap .tmp (.user 0); release .tmp; return .ptr null
  | 8 => do release .tmp; return .ptr null
  | _ => return .ptr null

/-- the shared state, everything null -/
def still (h : Option Nat) : St := { (initial null).shared with holder := h }

/-- thread 0 waits in `load`, thread 1 is idle (`0`) or has done `n - 1` actions of its `load` -/
def cyc (n : Nat) : Config Act Act.Res St Op Out :=
  ⟨still (if 2 ≤ n ∧ n ≤ 5 then some 1 else none), fun t =>
    if t = 0 then some (.load 0, load 0) else if t = 1 then (if n = 0 then none else some (.load 0, rem (n - 1))) else none⟩

theorem update_thr {x : Option (Op × P Out)} {n n' : Nat} (h : (cyc n').threads 1 = x) :
    Function.update (cyc n).threads 1 x = (cyc n').threads := by
  funext t
  by_cases e : t = 1
  · subst e; rw [Function.update_self, h]
  · rw [Function.update_of_ne e]
    simp [cyc, e]

theorem still_set (h : Option Nat) (t : Nat) (x : Var) : (still h).set t x null = still h := by
  simp only [St.set, still, initial]
  congr 1
  funext t' x'
  by_cases e : t' = t
  · subst e
    rw [Function.update_self]
    by_cases e' : x' = x
    · subst e'; rw [Function.update_self]
    · rw [Function.update_of_ne e']
  · rw [Function.update_of_ne e]

/-- what is seen of the step from `cyc n` -/
def seen (n : Nat) : Option (Ev Op Out) :=
  if n = 0 then some (.inv 1 (.load 0)) else if n = 10 then some (.ret 1 (.load 0) (.ptr null)) else none

theorem cyc_act {n n' : Nat} {a : Act} {k : a.Res → P Out} {r : a.Res} (h : (cyc n).threads 1 = some (.load 0, .act a k))
    (h' : (cyc n').threads 1 = some (.load 0, k r)) (hd : Does 1 a (cyc n).shared r (cyc n').shared) :
    Go sys 1 (cyc n) (cyc n') ∧ Step sys body (cyc n) none (cyc n') := by
  have e : cyc n' = ⟨(cyc n').shared, Function.update (cyc n).threads 1 (some (.load 0, k r))⟩ := by rw [update_thr h']
  rw [e]
  exact ⟨.act _ a k r _ h hd, .act 1 _ a k r _ h hd⟩

theorem cyc_step (n : Nat) (hn : n < 11) : Step sys body (cyc n) (seen n) (cyc ((n + 1) % 11)) := by
  have S : ∀ h t x, (still h).set t x null = still h := still_set
  match n, hn with
  | 0, _ =>
    have := Step.inv (sys := sys) (body := body) (c := cyc 0) 1 (.load 0) rfl
    rw [update_thr (n := 0) (n' := 1) (x := some (.load 0, body (.load 0))) rfl] at this
    exact this
  | 1, _ => exact (cyc_act (n := 1) (n' := 2) (a := .lock) (r := ()) rfl rfl (Does.lock (still none) rfl)).2
  | 2, _ => exact (cyc_act (n := 2) (n' := 3) (a := .rdPtr) (r := (0 : Nat)) rfl rfl (Does.rdPtr (still (some 1)))).2
  | 3, _ => exact (cyc_act (n := 3) (n' := 4) (a := .rdCtl) (r := (0 : Nat)) rfl rfl (Does.rdCtl (still (some 1)))).2
  | 4, _ =>
    have := Does.acquire (t := 1) (still (some 1)) .res 0 0
    rw [show ((still (some 1)).inc 0).set 1 .res ⟨0, 0⟩ = still (some 1) from S ..] at this
    exact (cyc_act (n := 4) (n' := 5) (a := .acquire .res 0 0) (r := ()) rfl rfl this).2
  | 5, _ => exact (cyc_act (n := 5) (n' := 6) (a := .unlock) (r := ()) rfl rfl (Does.unlock (still (some 1)))).2
  | 6, _ => exact (cyc_act (n := 6) (n' := 7) (a := .rd .res) (r := null) rfl rfl (Does.rd (still none) .res)).2
  | 7, _ =>
    have := Does.move (t := 1) (still none) .tmp .res
    rw [show ((still none).set 1 .tmp ((still none).cells 1 .res)).set 1 .res null = still none by
      rw [show (still none).cells 1 .res = null from rfl, S, S]] at this
    exact (cyc_act (n := 7) (n' := 8) (a := .move .tmp .res) (r := ()) rfl rfl this).2
  | 8, _ =>
    have := Does.swap (t := 1) (still none) .tmp (.user 0)
    rw [show ((still none).set 1 .tmp ((still none).cells 1 (.user 0))).set 1 (.user 0) ((still none).cells 1 .tmp) = still none by
      rw [show (still none).cells 1 (.user 0) = null from rfl, show (still none).cells 1 .tmp = null from rfl, S, S]] at this
    exact (cyc_act (n := 8) (n' := 9) (a := .swap .tmp (.user 0)) (r := ()) rfl rfl this).2
  | 9, _ =>
    have := Does.release (t := 1) (still none) .tmp
    rw [show ((still none).dec 1 ((still none).cells 1 .tmp).ctl).set 1 .tmp null = still none from S ..] at this
    exact (cyc_act (n := 9) (n' := 10) (a := .release .tmp) (r := ()) rfl rfl this).2
  | 10, _ =>
    have := Step.ret (sys := sys) (body := body) (c := cyc 10) 1 (.load 0) (.ptr null) rfl
    rw [update_thr (n := 10) (n' := 0) (x := none) rfl] at this
    exact this

/-- what is seen of thread 1 until moment `i + 1` -/
def seenUntil : Nat → List (Ev Op Out)
  | 0 => [.inv 0 (.load 0)]
  | i + 1 => seenUntil i ++ (seen (i % 11)).toList

/-- thread 1 loads again and again, always when thread 0 looks the lock is taken -/
def unlucky : Forever sys body (initial null) where
  at_ := fun i => match i with | 0 => initial null | i + 1 => cyc (i % 11)
  tr := fun i => match i with | 0 => [] | i + 1 => seenUntil i
  start := ⟨rfl, rfl⟩
  next := by
    intro i
    cases i with
    | zero =>
      left
      refine ⟨some (.inv 0 (.load 0)), ?_, rfl⟩
      have := Step.inv (sys := sys) (body := body) (c := initial null) 0 (.load 0) rfl
      have e : cyc 0 = ⟨(initial null).shared, Function.update (initial null).threads 0 (some (.load 0, body (.load 0)))⟩ := by
        simp only [cyc, still]
        congr 1
        funext t
        by_cases e : t = 0
        · subst e; simp [body]
        · simp [e, initial]
      show Step sys body (initial null) _ (cyc 0)
      rw [e]; exact this
    | succ i =>
      left
      refine ⟨seen (i % 11), ?_, rfl⟩
      have := cyc_step (i % 11) (Nat.mod_lt _ (by decide))
      show Step sys body (cyc (i % 11)) _ (cyc ((i + 1) % 11))
      rwa [show (i + 1) % 11 = (i % 11 + 1) % 11 by omega]

/-- The lock does not queue: under weak fairness alone a call may wait forever. Thread 0 is in `load` at all times from moment 1
on, while thread 1 finishes its `load`s again and again and the lock is free again and again. -/
theorem C69_storage_starvation_limit : ∃ E : Forever sys body (initial null), E.Weak ∧
    (∀ i, 1 ≤ i → (E.at_ i).threads 0 = some (.load 0, body (.load 0))) ∧
    (∀ i, ∃ j, i ≤ j ∧ E.Returns 1 j (.load 0) (.ptr null)) ∧ ∀ i, ∃ j, i ≤ j ∧ (E.at_ j).shared.holder = none := by
  have at_ : ∀ i n, n < 11 → unlucky.at_ (11 * i + n + 1) = cyc n := by
    intro i n hn
    show cyc ((11 * i + n) % 11) = cyc n
    rw [show (11 * i + n) % 11 = n by omega]
  refine ⟨unlucky, ?_, ?_, ?_, ?_⟩
  · intro t i h
    by_cases h0 : t = 0
    · subst h0
      obtain ⟨c', hg⟩ := h (11 * i + 2 + 1) (by omega)
      rw [at_ i 2 (by decide)] at hg
      cases hg with
      | act f a k r s' ht hd =>
        simp only [cyc, if_true, Option.some.injEq, Prod.mk.injEq] at ht
        obtain ⟨rfl, ht⟩ := ht
        cases ht
        cases hd with
        | lock _ hn => simp [cyc, still] at hn
      | ret f y ht =>
        simp only [cyc, if_true, Option.some.injEq, Prod.mk.injEq] at ht
        cases ht.2
    · by_cases h1 : t = 1
      · subst h1
        refine ⟨11 * i + 1 + 1, by omega, ?_⟩
        rw [at_ i 1 (by decide), show 11 * i + 1 + 1 + 1 = 11 * i + 2 + 1 from rfl, at_ i 2 (by decide)]
        exact (cyc_act (n := 1) (n' := 2) (a := .lock) (r := ()) rfl rfl (Does.lock (still none) rfl)).1
      · obtain ⟨c', hg⟩ := h (11 * i + 0 + 1) (by omega)
        rw [at_ i 0 (by decide)] at hg
        have hn : (cyc 0).threads t = none := by simp [cyc, h0]
        cases hg with
        | act f a k r s' ht hd => rw [hn] at ht; cases ht
        | ret f y ht => rw [hn] at ht; cases ht
  · intro i hi
    obtain ⟨i, rfl⟩ := Nat.exists_eq_add_of_le' hi
    rfl
  · intro i
    refine ⟨11 * i + 10 + 1, by omega, ?_, ?_, ?_⟩
    · rw [at_ i 10 (by decide)]; rfl
    · rw [show 11 * i + 10 + 1 + 1 = 11 * (i + 1) + 0 + 1 by omega, at_ (i + 1) 0 (by decide)]; rfl
    · show seenUntil (11 * i + 10 + 1) = seenUntil (11 * i + 10) ++ _
      show seenUntil (11 * i + 10) ++ (seen ((11 * i + 10) % 11)).toList = _
      rw [show (11 * i + 10) % 11 = 10 by omega]; rfl
  · intro i
    refine ⟨11 * i + 0 + 1, by omega, ?_⟩
    rw [at_ i 0 (by decide)]; rfl

/-! ### The hypotheses are met -/

/-- a strongly fair execution in which a thread makes an object, and in which that call returns -/
example : ∃ E : Forever sys body (initial null), E.Strong ∧ ∃ i p, (E.at_ i).threads 0 = some (.make 0, p) := by
  have e0 := (Exec.start (sys := sys) (body := body) (c₀ := initial null)).call (t := 0) rfl (.make 0)
  have e1 := (Exec.start (sys := sys) (body := body) (c₀ := ⟨(initial null).shared, Function.update (initial null).threads 0 (some (.make 0, body (.make 0)))⟩)).goOn
    (.make _ .res ⟨5, 7⟩ (by decide) (by simp [initial, null]))
  have e2 := ((e1.goOn (.move _ .tmp .res)).goOn (.swap _ .tmp (.user 0))).goOn (.release _ .tmp)
  have e3 := e2.done
  obtain ⟨E, hs, -, i, hi⟩ := Forever.exists_strong e0 e3 (fun t => by
    show Function.update (initial null).threads 0 none t = none
    by_cases e : t = 0
    · subst e; simp
    · simp [e, initial])
  exact ⟨E, hs, i, body (.make 0), by rw [hi]; simp⟩

end Itlib.ASptr
