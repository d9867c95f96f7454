import Verif.DataMutex.Props
import Mathlib.Tactic.IntervalCases
import Verif.Conc.Hb

/-!
# `data_mutex` publishes

The only synchronisation in the code is that of the mutex: prior calls of `unlock` synchronise with `lock` and `lock_shared`,
prior calls of `unlock_shared` synchronise with `lock`, likewise for `try_lock` and `try_lock_shared` where they succeed
([thread.mutex.requirements.mutex], [thread.sharedmutex.requirements]). Nothing orders two readers.
-/
namespace Itlib.DataMutex
open Itlib.Conc Spec

/-- everything that is done by threads using one `data_mutex` -/
abbrev Log := List (Done Act Act.Res Op Out)

/-- the mutex is locked, exclusively if `e` -/
def Acquires (e : Bool) : What Act Act.Res Op Out → Prop
  | .act (.lock e') r => e' = e ∧ r = Got.ok
  | .act (.tryLock e') r => e' = e ∧ r = Got.ok
  | _ => False

/-- what synchronises -/
def Sync : What Act Act.Res Op Out → What Act Act.Res Op Out → Prop
  | .act (.unlock true) _, w => ∃ e, Acquires e w
  | .act (.unlock false) _, w => Acquires true w
  | _, _ => False

/-- the thread that does event `i` has an engaged lock object then, as follows from the calls and returns before it -/
def HasAt (es : Log) (i : Nat) (k : Kind) : Prop := ∃ t x, es[i]? = some ⟨t, .own⟩ ∧ slot (trace (es.take i)) t x = .engaged k

/-- Event `i` is an access to the data, or something that a thread does outside of calls having an engaged lock object;
`true`: a write, or having an exclusive lock -/
inductive Uses (es : Log) (i : Nat) : Bool → Prop where
  | rd (r : Nat) (h : Is es i (.act .rdData r)) : Uses es i false
  | wr (v : Nat) (h : Is es i (.act (.wrData v) ())) : Uses es i true
  | has (k : Kind) (h : HasAt es i k) : Uses es i k.excl

/-- who knows of event `i` done by a thread having an exclusive lock -/
structure Wr (es : Log) (s : St) (i : Nat) : Prop where
  writer : ∀ t, s.writer = some t → Knows Sync es t i
  readers : ∀ t, 0 < s.readers t → Knows Sync es t i
  free : s.writer = none → Upto Sync es (.act (.unlock true) ()) i

/-- who knows of event `i` done by a thread having a lock -/
structure Rd (es : Log) (s : St) (i : Nat) : Prop where
  writer : ∀ t, s.writer = some t → Knows Sync es t i
  free : s.writer = none → Upto Sync es (.act (.unlock true) ()) i ∨ Upto Sync es (.act (.unlock false) ()) i ∨
    ∃ t, 0 < s.readers t ∧ Knows Sync es t i

variable {v₀ : Nat} {es : Log} {c : Config Act Act.Res St Op Out} {i t : Nat}

theorem Wr.mono {s s' : St} (h : Wr es s i) (hw : s'.writer = s.writer) (hr : s'.readers = s.readers) (e : Log) : Wr (es ++ e) s' i :=
  ⟨fun t ht => (h.writer t (by rw [← hw]; exact ht)).mono, fun t ht => (h.readers t (by rw [← hr]; exact ht)).mono,
    fun hn => (h.free (by rw [← hw]; exact hn)).mono⟩

theorem Rd.mono {s s' : St} (h : Rd es s i) (hw : s'.writer = s.writer) (hr : s'.readers = s.readers) (e : Log) : Rd (es ++ e) s' i :=
  ⟨fun t ht => (h.writer t (by rw [← hw]; exact ht)).mono, fun hn => by
    rcases h.free (by rw [← hw]; exact hn) with h | h | ⟨t, ht, h⟩
    · exact Or.inl h.mono
    · exact Or.inr (Or.inl h.mono)
    · exact Or.inr (Or.inr ⟨t, by rw [hr]; exact ht, h.mono⟩)⟩

theorem Wr.lockX {s : St} {w : What Act Act.Res Op Out} (h : Wr es s i) (hn : s.writer = none) (hr : ∀ t, s.readers t = 0) (hw : Acquires true w) :
    Wr (es ++ [⟨t, w⟩]) { s with writer := some t } i :=
  ⟨fun t' ht => by cases ht; exact (h.free hn).learn ⟨true, hw⟩, fun t' ht => by simp [hr] at ht, fun h => by cases h⟩

theorem Wr.lockS {s : St} {w : What Act Act.Res Op Out} (h : Wr es s i) (hn : s.writer = none) (hw : Acquires false w) :
    Wr (es ++ [⟨t, w⟩]) { s with readers := Function.update s.readers t (s.readers t + 1) } i := by
  refine ⟨fun t' ht => (h.writer t' ht).mono, fun t' ht => ?_, fun hn => (h.free hn).mono⟩
  by_cases e : t' = t
  · subst e; exact (h.free hn).learn ⟨false, hw⟩
  · simp only [Function.update_of_ne e] at ht
    exact (h.readers t' ht).mono

theorem Rd.lockX {s : St} {w : What Act Act.Res Op Out} (h : Rd es s i) (hn : s.writer = none) (hr : ∀ t, s.readers t = 0) (hw : Acquires true w) :
    Rd (es ++ [⟨t, w⟩]) { s with writer := some t } i := by
  refine ⟨fun t' ht => ?_, fun h => by cases h⟩
  cases ht
  rcases h.free hn with h | h | ⟨t', ht, -⟩
  · exact h.learn ⟨true, hw⟩
  · exact h.learn hw
  · simp [hr] at ht

theorem Rd.lockS {s : St} {w : What Act Act.Res Op Out} (h : Rd es s i) :
    Rd (es ++ [⟨t, w⟩]) { s with readers := Function.update s.readers t (s.readers t + 1) } i := by
  refine ⟨fun t' ht => (h.writer t' ht).mono, fun hn => ?_⟩
  rcases h.free hn with h | h | ⟨t', ht, h⟩
  · exact Or.inl h.mono
  · exact Or.inr (Or.inl h.mono)
  · refine Or.inr (Or.inr ⟨t', ?_, h.mono⟩)
    by_cases e : t' = t
    · subst e; simp
    · simpa [Function.update_of_ne e] using ht

theorem Wr.step {s s' : St} {a : Act} {r : a.Res} (h : Wr es s i) (hb : ¬ Bad t a s) (hd : Does false t a s r s') :
    Wr (es ++ [⟨t, .act a r⟩]) s' i := by
  cases hd with
  | lockX _ hn hr => exact h.lockX hn hr ⟨rfl, rfl⟩
  | lockS _ hn => exact h.lockS hn ⟨rfl, rfl⟩
  | lockThrows _ _ h => cases h
  | tryX _ hn hr => exact h.lockX hn hr ⟨rfl, rfl⟩
  | tryS _ hn => exact h.lockS hn ⟨rfl, rfl⟩
  | tryFails _ _ => exact h.mono (by rfl) (by rfl) _
  | tryThrows _ _ h => cases h
  | unlockX _ =>
    simp only [Bad, ne_eq, not_not] at hb
    exact ⟨fun t h => (by cases h), fun t' ht => (h.readers t' ht).mono, fun _ => (h.writer t hb).upto⟩
  | unlockS _ =>
    refine ⟨fun t ht => (h.writer t ht).mono, fun t' ht => ?_, fun hn => (h.free hn).mono⟩
    refine (h.readers t' ?_).mono
    by_cases e : t' = t
    · subst e; simp at ht; omega
    · simpa [Function.update_of_ne e] using ht
  | newObj _ _ _ _ => exact h.mono (by rfl) (by rfl) _
  | rdObj _ _ _ _ => exact h.mono (by rfl) (by rfl) _
  | setPtr _ _ _ _ _ => exact h.mono (by rfl) (by rfl) _
  | delObj _ _ => exact h.mono (by rfl) (by rfl) _
  | rdData _ => exact h.mono (by rfl) (by rfl) _
  | wrData _ _ => exact h.mono (by rfl) (by rfl) _

theorem Rd.step {s s' : St} {a : Act} {r : a.Res} (h : Rd es s i) (hb : ¬ Bad t a s) (hd : Does false t a s r s') :
    Rd (es ++ [⟨t, .act a r⟩]) s' i := by
  cases hd with
  | lockX _ hn hr => exact h.lockX hn hr ⟨rfl, rfl⟩
  | lockS _ hn => exact h.lockS
  | lockThrows _ _ h => cases h
  | tryX _ hn hr => exact h.lockX hn hr ⟨rfl, rfl⟩
  | tryS _ hn => exact h.lockS
  | tryFails _ _ => exact h.mono (by rfl) (by rfl) _
  | tryThrows _ _ h => cases h
  | unlockX _ =>
    simp only [Bad, ne_eq, not_not] at hb
    exact ⟨fun t h => (by cases h), fun _ => Or.inl (h.writer t hb).upto⟩
  | unlockS _ =>
    refine ⟨fun t ht => (h.writer t ht).mono, fun hn => ?_⟩
    rcases h.free hn with h | h | ⟨t', ht, h⟩
    · exact Or.inl h.mono
    · exact Or.inr (Or.inl h.mono)
    · by_cases e : t' = t
      · subst e; exact Or.inr (Or.inl h.upto)
      · exact Or.inr (Or.inr ⟨t', by simpa [Function.update_of_ne e] using ht, h.mono⟩)
  | newObj _ _ _ _ => exact h.mono (by rfl) (by rfl) _
  | rdObj _ _ _ _ => exact h.mono (by rfl) (by rfl) _
  | setPtr _ _ _ _ _ => exact h.mono (by rfl) (by rfl) _
  | delObj _ _ => exact h.mono (by rfl) (by rfl) _
  | rdData _ => exact h.mono (by rfl) (by rfl) _
  | wrData _ _ => exact h.mono (by rfl) (by rfl) _

/-- thread `t` has the mutex, exclusively if `b` -/
def Has (s : St) (t : Nat) : Bool → Prop
  | true => s.writer = some t ∧ ∀ t', s.readers t' = 0
  | false => s.writer = some t ∨ s.writer = none ∧ 0 < s.readers t

theorem Mtx.has {w : Option Nat} {r : Nat → Nat} {objs : Nat → Nat → Slot} (h : Mtx w r objs) {x : Nat} {k : Kind} (hx : objs t x = .engaged k)
    {s : St} (hw : s.writer = w) (hr : s.readers = r) : Has s t k.excl := by
  rcases excl_or k with hk | rfl
  · rw [hk]
    refine ⟨by rw [hw]; exact (h.writer t).mpr ⟨x, k, hx, hk⟩, fun t' => ?_⟩
    obtain ⟨l, -, hl, e⟩ := h.readers t'
    rw [hr, e, List.length_eq_zero_iff]
    refine List.eq_nil_iff_forall_not_mem.mpr fun y hy => ?_
    obtain ⟨rfl, rfl⟩ := h.one _ _ _ _ _ _ hx hk ((hl y).mp hy)
    rw [(hl x).mp hy] at hx
    cases hx
    cases hk
  · refine Or.inr ⟨?_, ?_⟩
    · rw [hw]
      cases w with
      | none => rfl
      | some t' =>
        obtain ⟨x', k', h1, h2⟩ := (h.writer t').mp rfl
        obtain ⟨rfl, rfl⟩ := h.one _ _ _ _ _ _ h1 h2 hx
        rw [hx] at h1
        cases h1
        cases h2
    · obtain ⟨l, -, hl, e⟩ := h.readers t
      rw [hr, e]
      exact List.length_pos_of_mem ((hl x).mpr hx)

theorem Has.weaken {s : St} {b : Bool} (h : Has s t b) : Has s t false := by
  cases b with
  | true => exact Or.inl h.1
  | false => exact h

/-- what holds after every execution -/
structure Inv (es : Log) (c : Config Act Act.Res St Op Out) : Prop where
  wr : ∀ i, Uses es i true → Wr es c.shared i
  rd : ∀ i b, Uses es i b → Rd es c.shared i
  race : ∀ i k b b', i < k → Uses es i b → Uses es k b' → b = true ∨ b' = true → Hb Sync es i k

theorem Uses.lt {b : Bool} (h : Uses es i b) : i < es.length := by
  cases h with
  | rd r h => exact h.lt
  | wr v h => exact h.lt
  | has k h =>
    obtain ⟨t, x, h, -⟩ := h
    exact (List.getElem?_eq_some_iff.mp h).1

/-- what the new event `w` may be -/
def New (es : Log) (t : Nat) (w : What Act Act.Res Op Out) : Bool → Prop
  | true => (∃ v, w = .act (.wrData v) ()) ∨ w = .own ∧ ∃ x k, slot (trace es) t x = .engaged k ∧ k.excl = true
  | false => (∃ r, w = .act .rdData r) ∨ w = .own ∧ ∃ x k, slot (trace es) t x = .engaged k ∧ k.excl = false

theorem uses_cases {w : What Act Act.Res Op Out} {b : Bool} (h : Uses (es ++ [⟨t, w⟩]) i b) : Uses es i b ∨ i = es.length ∧ New es t w b := by
  cases h with
  | rd r h => exact (is_cases h).imp (.rd r) fun h => ⟨h.1, .inl ⟨r, h.2⟩⟩
  | wr v h => exact (is_cases h).imp (.wr v) fun h => ⟨h.1, .inl ⟨v, h.2⟩⟩
  | has k h =>
    obtain ⟨t', x, h1, h2⟩ := h
    have hl := (List.getElem?_eq_some_iff.mp h1).1
    simp only [List.length_append, List.length_singleton] at hl
    by_cases e : i < es.length
    · rw [List.getElem?_append_left e] at h1
      rw [List.take_append_of_le_length (Nat.le_of_lt e)] at h2
      exact Or.inl (.has k ⟨t', x, h1, h2⟩)
    · have : i = es.length := by omega
      subst this
      simp only [List.getElem?_concat_length, Option.some.injEq, Done.mk.injEq] at h1
      obtain ⟨rfl, rfl⟩ := h1
      rw [List.take_left] at h2
      refine Or.inr ⟨rfl, ?_⟩
      cases e : k.excl with
      | true => exact Or.inr ⟨rfl, x, k, h2, e⟩
      | false => exact Or.inr ⟨rfl, x, k, h2, e⟩

theorem Inv.grow {c' : Config Act Act.Res St Op Out} {w : What Act Act.Res Op Out} (h : Inv es c)
    (hw : ∀ i, Wr es c.shared i → Wr (es ++ [⟨t, w⟩]) c'.shared i) (hr : ∀ i, Rd es c.shared i → Rd (es ++ [⟨t, w⟩]) c'.shared i)
    (hn : ∀ b, New es t w b → Has c.shared t b ∧ Has c'.shared t b) : Inv (es ++ [⟨t, w⟩]) c' := by
  refine ⟨fun i hi => ?_, fun i b hi => ?_, fun i k b b' hik hi hk hb => ?_⟩
  · rcases uses_cases hi with hi | ⟨rfl, e⟩
    · exact hw i (h.wr i hi)
    · obtain ⟨-, h1, h2⟩ := hn _ e
      exact ⟨fun t' ht => (by rw [h1] at ht; cases ht; exact knows_new), fun t' ht => by simp [h2] at ht, fun ht => by rw [h1] at ht; cases ht⟩
  · rcases uses_cases hi with hi | ⟨rfl, e⟩
    · exact hr i (h.rd i b hi)
    · rcases (hn _ e).2.weaken with h1 | ⟨h1, h2⟩
      · exact ⟨fun t' ht => (by rw [h1] at ht; cases ht; exact knows_new), fun ht => by rw [h1] at ht; cases ht⟩
      · exact ⟨fun t' ht => (by rw [h1] at ht; cases ht), fun ht => Or.inr (Or.inr ⟨t, h2, knows_new⟩)⟩
  · rcases uses_cases hk with hk | ⟨rfl, e⟩
    · rcases uses_cases hi with hi | ⟨rfl, -⟩
      · exact (h.race i k b b' hik hi hk hb).mono
      · have := hk.lt; omega
    · rcases uses_cases hi with hi | ⟨rfl, -⟩
      · rcases hb with rfl | rfl
        · rcases (hn _ e).1.weaken with h1 | ⟨h1, h2⟩
          · exact ((h.wr i hi).writer t h1).next
          · exact ((h.wr i hi).readers t h2).next
        · exact ((h.rd i b hi).writer t (hn _ e).1.1).next
      · omega

theorem inv_run (h : Run (sys false) body (initial v₀) es c) (ha : Follows Allowed (trace es)) : Inv es c := by
  induction h with
  | start =>
    refine ⟨fun i h => ?_, fun i b h => ?_, fun i k b _ _ h => ?_⟩
    · have := h.lt; simp at this
    · have := h.lt; simp at this
    · have := h.lt; simp at this
  | @inv es c h t f ht ih =>
    rw [trace_append] at ha
    refine (ih ha.init).grow (fun i h => h.mono rfl rfl _) (fun i h => h.mono rfl rfl _) fun b hb => ?_
    cases b <;> rcases hb with ⟨_, hb⟩ | ⟨hb, -⟩ <;> cases hb
  | @act es c h t f a k r s' ht hs ih =>
    rw [trace_append] at ha
    have hb : ¬ Bad t a c.shared := fun hb => C42_no_ub_partial h.exec ha.init ⟨t, f, a, k, ht, hb⟩
    refine (ih ha.init).grow (fun i h => h.step hb hs) (fun i h => h.step hb hs) fun b hn => ?_
    obtain ⟨z, ph, hj⟩ := invariant h.exec ha.init
    obtain ⟨K, hr, hpre, -⟩ := hj.run t f _ ht
    cases b with
    | true =>
      rcases hn with ⟨v, hn⟩ | ⟨hn, -⟩
      · cases hn
        cases hs
        obtain ⟨-, x, -, hx⟩ := hpre
        rw [← hr.slots] at hx
        exact ⟨hj.mtx.has hx rfl rfl, hj.mtx.has hx rfl rfl⟩
      · cases hn
    | false =>
      rcases hn with ⟨v, hn⟩ | ⟨hn, -⟩
      · cases hn
        cases hs
        obtain ⟨-, x, k', -, hx⟩ := hpre
        rw [← hr.slots] at hx
        exact ⟨(hj.mtx.has hx rfl rfl).weaken, (hj.mtx.has hx rfl rfl).weaken⟩
      · cases hn
  | @ret es c h t f y ht ih =>
    rw [trace_append] at ha
    refine (ih ha.init).grow (fun i h => h.mono rfl rfl _) (fun i h => h.mono rfl rfl _) fun b hb => ?_
    cases b <;> rcases hb with ⟨_, hb⟩ | ⟨hb, -⟩ <;> cases hb
  | @own es c h t ht ih =>
    rw [trace_append] at ha
    refine (ih ha.init).grow (fun i h => h.mono rfl rfl _) (fun i h => h.mono rfl rfl _) fun b hn => ?_
    obtain ⟨z, ph, hj⟩ := invariant h.exec ha.init
    have hbal := hj.bal t
    rw [(hj.idle t ht).1] at hbal
    simp only [Bal] at hbal
    cases b with
    | true =>
      rcases hn with ⟨v, hn⟩ | ⟨-, x, k, hx, hk⟩
      · cases hn
      · rw [← hbal] at hx
        have := hj.mtx.has hx (s := c.shared) rfl rfl
        rw [hk] at this
        exact ⟨this, this⟩
    | false =>
      rcases hn with ⟨v, hn⟩ | ⟨-, x, k, hx, hk⟩
      · cases hn
      · rw [← hbal] at hx
        have := hj.mtx.has hx (s := c.shared) rfl rfl
        rw [hk] at this
        exact ⟨this, this⟩

/-- Of two accesses to the data of which one is a write, the earlier happens before the later, so the later one sees what the
earlier one did and there is no data race. The same goes for anything else that threads do having engaged lock objects of which
one is exclusive. -/
theorem C62_data_mutex_publishes (h : Run (sys false) body (initial v₀) es c) (ha : Follows Allowed (trace es)) {k : Nat} {b b' : Bool}
    (hik : i < k) (hi : Uses es i b) (hk : Uses es k b') (hb : b = true ∨ b' = true) : Hb Sync es i k :=
  (inv_run h ha).race i k b b' hik hi hk hb

/-! ### A concrete case -/

/-- thread 0 writes under a unique lock, thread 1 then reads under a shared one, thread 2 then writes under a unique one -/
def exampleLog : Log :=
  [⟨0, .inv (.make .unique true 0)⟩, ⟨0, .act (.newObj (.user 0) .unique .data) ()⟩, ⟨0, .act (.lock true) Got.ok⟩, ⟨0, .ret (.make .unique true 0) .unit⟩,
   ⟨0, .inv (.write 0 7)⟩, ⟨0, .act (.rdObj (.user 0)) (⟨.unique, .data⟩ : Obj)⟩, ⟨0, .act (.wrData 7) ()⟩, ⟨0, .ret (.write 0 7) .unit⟩,
   ⟨0, .inv (.destroy 0)⟩, ⟨0, .act (.rdObj (.user 0)) (⟨.unique, .data⟩ : Obj)⟩, ⟨0, .act (.unlock true) ()⟩, ⟨0, .act (.delObj (.user 0)) ()⟩,
   ⟨0, .ret (.destroy 0) .unit⟩,
   ⟨1, .inv (.make .shared true 0)⟩, ⟨1, .act (.newObj (.user 0) .shared .data) ()⟩, ⟨1, .act (.lock false) Got.ok⟩, ⟨1, .ret (.make .shared true 0) .unit⟩,
   ⟨1, .inv (.read 0)⟩, ⟨1, .act (.rdObj (.user 0)) (⟨.shared, .data⟩ : Obj)⟩, ⟨1, .act .rdData (7 : Nat)⟩, ⟨1, .ret (.read 0) (.val 7)⟩,
   ⟨1, .inv (.destroy 0)⟩, ⟨1, .act (.rdObj (.user 0)) (⟨.shared, .data⟩ : Obj)⟩, ⟨1, .act (.unlock false) ()⟩, ⟨1, .act (.delObj (.user 0)) ()⟩,
   ⟨1, .ret (.destroy 0) .unit⟩,
   ⟨2, .inv (.make .unique true 0)⟩, ⟨2, .act (.newObj (.user 0) .unique .data) ()⟩, ⟨2, .act (.lock true) Got.ok⟩, ⟨2, .ret (.make .unique true 0) .unit⟩,
   ⟨2, .own⟩]

theorem example_run : ∃ c, Run (sys false) body (initial 0) exampleLog c := by
  have e0 := (Run.start (sys := sys false) (body := body) (c₀ := initial 0)).inv 0 (.make .unique true 0) rfl
  have e1 := ((e0.goOn (.newObj _ _ _ _)).goOn (.lockX _ rfl fun _ => rfl)).done
  have e2 := e1.inv 0 (.write 0 7) (by simp)
  have e3 := ((e2.goOn (.rdObj _ _ ⟨.unique, .data⟩ (by simp [St.setObj]))).goOn (.wrData _ _)).done
  have e4 := e3.inv 0 (.destroy 0) (by simp)
  have e5 := (((e4.goOn (.rdObj _ _ ⟨.unique, .data⟩ (by simp [St.setObj]))).goOn (.unlockX _)).goOn (.delObj _ _)).done
  have f0 := e5.inv 1 (.make .shared true 0) (by simp [initial])
  have f1 := ((f0.goOn (.newObj _ _ _ _)).goOn (.lockS _ rfl)).done
  have f2 := f1.inv 1 (.read 0) (by simp)
  have f3 := ((f2.goOn (.rdObj _ _ ⟨.shared, .data⟩ (by simp [St.setObj]))).goOn (.rdData _)).done
  have f4 := f3.inv 1 (.destroy 0) (by simp)
  have f5 := (((f4.goOn (.rdObj _ _ ⟨.shared, .data⟩ (by simp [St.setObj]))).goOn (.unlockS _)).goOn (.delObj _ _)).done
  have g0 := f5.inv 2 (.make .unique true 0) (by simp [initial])
  have g1 := ((g0.goOn (.newObj _ _ _ _)).goOn (.lockX _ rfl fun t => by
    by_cases h : t = 1 <;> simp [St.setObj, Function.update, h, initial])).done
  exact ⟨_, g1.own 2 (by simp)⟩

theorem example_follows : Follows Allowed (trace exampleLog) := by
  intro p t f q e
  have ok : ∀ (n : Nat), p.length = n → (trace exampleLog).take n = p ∧ (trace exampleLog)[n]? = some (.inv t f) := by
    rintro n rfl
    rw [e]; simp
  have hl : p.length < (trace exampleLog).length := by rw [e]; simp
  obtain ⟨h1, h2⟩ := ok _ rfl
  revert h1 h2
  have hl' : p.length < 14 := hl
  generalize p.length = n at hl'
  interval_cases n <;> intro h1 h2 <;> simp [exampleLog, trace] at h1 h2 <;> obtain ⟨rfl, rfl⟩ := h2 <;> subst h1 <;>
    simp [Allowed, Ok, slot, slots, eff, Function.update]

/-- the write happens before the read, and the read before what thread 2 does having its lock -/
example : Hb Sync exampleLog 6 19 ∧ Hb Sync exampleLog 19 30 := by
  obtain ⟨c, h⟩ := example_run
  refine ⟨C62_data_mutex_publishes h example_follows (by decide) (.wr 7 ⟨0, rfl⟩) (.rd 7 ⟨1, rfl⟩) (Or.inl rfl),
    C62_data_mutex_publishes h example_follows (by decide) (.rd 7 ⟨1, rfl⟩) (.has .unique ⟨2, 0, rfl, ?_⟩) (Or.inr rfl)⟩
  simp [exampleLog, trace, slot, slots, eff, Function.update]

end Itlib.DataMutex
