import Verif.MemOut.Failing
import Verif.MemOut.Props

/-! # C70: `mem_ostreambuf` when memory cannot be had -/
namespace Itlib.MemOut
open Itlib M
variable {C : Type} {K : Container C}

/-! ### The capacity does not shrink -/

/-- whatever the code does, the capacity is at least `c` afterwards -/
def Keeps {α : Type} (c : Nat) (m : Mem C α) : Prop :=
  ∀ b, c ≤ b.cap → match m b with
    | .ok _ b' => c ≤ b'.cap
    | .throw _ b' => c ≤ b'.cap
    | .ub => True

theorem Keeps.bind {α β : Type} {c : Nat} {m : Mem C α} {f : α → Mem C β} (hm : Keeps c m) (hf : ∀ a, Keeps c (f a)) :
    Keeps c (m >>= f) := by
  intro b hb
  have := hm b hb
  simp only [bind_apply]
  cases h : m b with
  | ok a b' => rw [h] at this; exact hf a b' this
  | throw e b' => rw [h] at this; exact this
  | ub => trivial

theorem Keeps.get {c : Nat} : Keeps (C := C) c M.get := fun _ hb => hb
theorem Keeps.pure {α : Type} {c : Nat} (a : α) : Keeps (C := C) c (Pure.pure a : Mem C α) := fun _ hb => hb
theorem Keeps.undef {α : Type} {c : Nat} : Keeps (C := C) c (M.undef : Mem C α) := fun _ _ => trivial
theorem Keeps.ite {α : Type} {c : Nat} {p : Prop} [Decidable p] {m n : Mem C α} (hm : Keeps c m) (hn : Keeps c n) :
    Keeps c (if p then m else n) := by split <;> assumption
theorem Keeps.setp {c : Nat} (p e : Ptr) : Keeps (C := C) c (setp p e) := fun _ hb => hb

theorem keeps_data {c : Nat} : Keeps c (data K) := fun b hb => by rw [data_apply]; exact hb
theorem keeps_shift {c : Nat} (p : Ptr) (n : Int) : Keeps (C := C) c (shift p n) := by
  refine .bind .get fun b => ?_
  cases p
  · exact .ite (.pure _) .undef
  · exact .ite (.pure _) .undef
theorem keeps_diff {c : Nat} (p q : Ptr) : Keeps (C := C) c (diff p q) := by
  refine .bind .get fun b => ?_
  cases p <;> cases q <;> first | exact .pure _ | exact .undef | exact .ite (.pure _) .undef
theorem keeps_poff {c : Nat} : Keeps c (poff K) := .bind .get fun _ => .bind keeps_data fun _ => keeps_diff _ _
theorem keeps_copyTo {c : Nat} (p : Ptr) (s : List C) : Keeps c (copyTo p s) := by
  intro b hb
  simp only [copyTo, bind_apply, get_apply]
  cases p with
  | null =>
    by_cases hs : s = []
    · simp only [hs, if_true]; exact hb
    · simp only [hs, if_false]; trivial
  | «at» g o =>
    by_cases hs : g = b.gen ∧ o + s.length ≤ b.elems.length
    · simp only [if_pos hs]; exact hb
    · simp only [if_neg hs]; trivial
theorem keeps_pbump {c : Nat} (n : Int) : Keeps (C := C) c (pbump n) :=
  .bind .get fun _ => .bind (keeps_shift _ _) fun _ => fun _ hb => hb
theorem keeps_resize (hK : K.Grows) {c : Nat} (n : Nat) : Keeps c (resize K n) := by
  intro b hb
  simp only [resize, bind_apply, get_apply]
  have := hK.grow_ge b.cap n
  by_cases h1 : n ≤ b.cap
  · simp only [if_pos h1]; exact hb
  · by_cases h2 : K.Fits n
    · simp only [if_neg h1, if_pos h2, set_apply]; omega
    · simp only [if_neg h1, if_neg h2]; exact hb
theorem keeps_capResizeBy (hK : K.Grows) {c : Nat} (n : Nat) : Keeps c (capResizeBy K n) :=
  .bind keeps_poff fun _ => .bind .get fun _ => .bind (keeps_resize hK _) fun _ => .bind .get fun _ =>
    .bind (keeps_resize hK _) fun _ => .bind keeps_data fun _ => .bind (keeps_shift _ _) fun _ =>
    .bind (keeps_shift _ _) fun _ => .setp _ _
theorem keeps_sputc (hK : K.Grows) {c : Nat} (ch : C) : Keeps c (sputc K ch) :=
  .bind .get fun _ => .bind (keeps_diff _ _) fun _ => .ite
    (.bind (keeps_copyTo _ _) fun _ => keeps_pbump _)
    (.bind (keeps_capResizeBy hK _) fun _ => .bind .get fun _ => .bind (keeps_copyTo _ _) fun _ => keeps_pbump _)
theorem keeps_xsputn (hK : K.Grows) {c : Nat} (s : List C) : Keeps c (xsputn K s) :=
  .bind .get fun _ => .bind (keeps_diff _ _) fun _ => .ite
    (.bind (keeps_capResizeBy hK _) fun _ => .bind .get fun _ => .bind (keeps_copyTo _ _) fun _ => keeps_pbump _)
    (.bind .get fun _ => .bind (keeps_copyTo _ _) fun _ => keeps_pbump _)
theorem keeps_seekpos {c : Nat} (t : Int) : Keeps c (seekpos K t) :=
  .bind .get fun _ => .bind keeps_data fun _ => .bind (keeps_shift _ _) fun _ => .bind (keeps_shift _ _) fun _ =>
    .bind (.setp _ _) fun _ => .pure _
theorem keeps_seekoff {c : Nat} (t : Int) (w : Way) : Keeps c (seekoff K t w) := by
  cases w
  · exact keeps_seekpos _
  · exact .bind keeps_poff fun _ => keeps_seekpos _
  · exact .bind .get fun _ => keeps_seekpos _
theorem keeps_clear {c : Nat} : Keeps c (clear K) :=
  .bind (fun _ hb => hb) fun _ => .bind keeps_data fun _ => .setp _ _

theorem keeps_exec (hK : K.Grows) {c : Nat} {op : Op C} (h : op ≠ .get) : Keeps c (exec K op) := by
  cases op with
  | get => exact absurd rfl h
  | put ch => exact .bind (keeps_sputc hK ch) fun _ => .pure _
  | write s => exact .bind (keeps_xsputn hK s) fun _ => .pure _
  | seek o w => exact .bind (keeps_seekoff o w) fun _ => .pure _
  | poff => exact .bind keeps_poff fun _ => .pure _
  | clear => exact .bind keeps_clear fun _ => .pure _

theorem call_cap (hK : K.Grows) {op : Op C} (h : op ≠ .get) {b b' : Buf C} {r : Reply C} (hc : call K op b = some (r, b')) :
    b.cap ≤ b'.cap := by
  have := keeps_exec hK h b (Nat.le_refl b.cap)
  unfold call at hc
  cases he : exec K op b with
  | ok a b1 => rw [he] at hc this; simp only [Option.some.injEq, Prod.mk.injEq] at hc; obtain ⟨rfl, rfl⟩ := hc; exact this
  | throw e b1 => rw [he] at hc this; simp only [Option.some.injEq, Prod.mk.injEq] at hc; obtain ⟨rfl, rfl⟩ := hc; exact this
  | ub => rw [he] at hc; simp at hc

/-! ### Without memory -/

theorem starved_grows (K : Container C) (c : Nat) : (K.starved c).Grows := ⟨fun _ n => Nat.le_refl n, fun _ _ h => h⟩

theorem starved_fits (c n : Nat) : (K.starved c).Fits n ↔ n ≤ c := by simp [Container.Fits, Container.starved]

/-- `resize` of a starved container: the same as ever, if no memory is needed -/
theorem starved_resize (b : Buf C) (n : Nat) :
    resize (K.starved b.cap) n b = if n ≤ b.cap then resize K n b else .throw .outOfRange b := by
  by_cases h : n ≤ b.cap
  · simp [resize, h, Container.starved]
  · have : ¬ (K.starved b.cap).Fits n := fun hf => h ((starved_fits _ _).1 hf)
    simp [resize, h, this]

theorem Rel.starve {y : Spec.File C} {b : Buf C} (h : Rel K y b) : Rel (K.starved b.cap) y b :=
  ⟨h.pptr, h.epptr, h.taken, h.size, (starved_fits _ _).2 (Nat.le_refl _), h.pos, h.len, h.elems⟩

theorem Rel.feed {c : Nat} {y : Spec.File C} {b : Buf C} (h : Rel (K.starved c) y b) (hc : K.Fits c) : Rel K y b :=
  ⟨h.pptr, h.epptr, h.taken, h.size, hc.mono ((starved_fits _ _).1 h.fits), h.pos, h.len, h.elems⟩

/-- a call without memory: nothing else happens, or it is refused -/
theorem starved_step (hK : K.Lawful) {room : Nat} {op : Op C} {y y' : Spec.File C} {b : Buf C} {r} (h : Rel K y b)
    (hroom : room ≤ b.cap) (hs : Spec.Safe K op y) (hc : Spec.call K op y = some (r, y')) :
    (∃ b', call (K.starved b.cap) op b = some (r, b') ∧ Rel K y' b') ∨
    (call (K.starved b.cap) op b = some (.exc, b) ∧ Spec.Refused true room op y) := by
  by_cases hw : ∃ k, Spec.amount op = some k
  · have ht : y.taken = false := by
      obtain ⟨k, hk⟩ := hw
      cases ht : y.taken with
      | false => rfl
      | true => rw [hs.1 ht] at hk; simp [Spec.amount] at hk
    cases op with
    | put c =>
      have := sputc_step (starved_grows K b.cap) h.starve ht c
      split at this
      · rename_i hf
        obtain ⟨b', e, hr⟩ := this
        refine .inl ⟨b', ?_, ?_⟩
        · have hf' : K.Fits (y.pos + 1) := h.fits.mono ((starved_fits _ _).1 hf)
          simp only [Spec.call, if_pos hf', Option.some.injEq, Prod.mk.injEq] at hc
          simp [call, exec, e, hc.1]
        · have hf' : K.Fits (y.pos + 1) := h.fits.mono ((starved_fits _ _).1 hf)
          simp only [Spec.call, if_pos hf', Option.some.injEq, Prod.mk.injEq] at hc
          rw [← hc.2]; exact hr.feed h.fits
      · rename_i hf
        obtain ⟨e, he⟩ := this
        refine .inr ⟨by simp [call, exec, he], rfl, 1, rfl, ?_⟩
        rw [starved_fits] at hf; omega
    | write s =>
      have := xsputn_step (starved_grows K b.cap) h.starve ht s hs.2
      split at this
      · rename_i hf
        obtain ⟨b', e, hr⟩ := this
        have hf' : K.Fits (y.pos + s.length) := h.fits.mono ((starved_fits _ _).1 hf)
        simp only [Spec.call, if_pos hf', Option.some.injEq, Prod.mk.injEq] at hc
        refine .inl ⟨b', ?_, ?_⟩
        · simp [call, exec, e, hc.1]
        · rw [← hc.2]; exact hr.feed h.fits
      · rename_i hf
        obtain ⟨e, he⟩ := this
        refine .inr ⟨by simp [call, exec, he], rfl, s.length, rfl, ?_⟩
        rw [starved_fits] at hf; omega
    | _ => obtain ⟨k, hk⟩ := hw; simp [Spec.amount] at hk
  · -- the other calls do not ask for memory
    obtain ⟨b', e, hr⟩ := call_step hK h hs hc
    refine .inl ⟨b', ?_, hr⟩
    rw [← e]
    cases op with
    | put c => exact absurd ⟨1, rfl⟩ hw
    | write s => exact absurd ⟨s.length, rfl⟩ hw
    | _ => rfl

/-- Histories. -/
theorem runF_rel (hK : K.Lawful) {room : Nat} {ops : List (Bool × Op C)} {y : Spec.File C} {b : Buf C} (h : Rel K y b)
    (hroom : room ≤ b.cap) (hs : Spec.SafeRuns K room ops y) :
    ∃ rs y' b', runF K ops b = some (rs, b') ∧ Spec.Runs K room ops y rs y' ∧ Rel K y' b' := by
  induction ops generalizing room y b with
  | nil => exact ⟨[], y, b, rfl, .nil, h⟩
  | cons o ops ih =>
    obtain ⟨f, op⟩ := o
    obtain ⟨hsafe, hdef, hgo, href⟩ := hs
    obtain ⟨⟨r, y1⟩, hc⟩ := Option.ne_none_iff_exists'.1 hdef
    have key : (∃ b1, callF K f op b = some (r, b1) ∧ Rel K y1 b1) ∨
        (callF K f op b = some (.exc, b) ∧ Spec.Refused f room op y) := by
      cases f with
      | false => exact .inl (call_step hK h hsafe hc)
      | true => exact starved_step hK h hroom hsafe hc
    rcases key with ⟨b1, e1, h1⟩ | ⟨e1, hr⟩
    · have hroom1 : Spec.roomAfter room op y r ≤ b1.cap := by
        by_cases hg : op = .get
        · subst hg; exact Nat.zero_le _
        · have hcap : b.cap ≤ b1.cap := by
            cases f with
            | false => exact call_cap hK.grows hg e1
            | true => exact call_cap (starved_grows K _) hg e1
          have h2 := h1.pos; have h3 := h1.len; have h4 := h1.size
          unfold Spec.roomAfter
          split
          · exact absurd rfl hg
          · omega
          · rename_i _ hx
            split
            · rename_i k hk
              have : y1.pos = y.pos + k := by
                cases op with
                | put c =>
                  simp only [Spec.amount, Option.some.injEq] at hk; subst hk
                  simp only [Spec.call] at hc
                  split at hc <;> simp only [Option.some.injEq, Prod.mk.injEq] at hc
                  · rw [← hc.2]; simp [Spec.File.write]
                  · exact absurd hc.1.symm hx
                | write s =>
                  simp only [Spec.amount, Option.some.injEq] at hk; subst hk
                  simp only [Spec.call] at hc
                  split at hc <;> simp only [Option.some.injEq, Prod.mk.injEq] at hc
                  · rw [← hc.2]; simp [Spec.File.write]
                  · exact absurd hc.1.symm hx
                | _ => simp [Spec.amount] at hk
              omega
            · omega
      obtain ⟨rs, y2, b2, e2, hr2, h2⟩ := ih h1 hroom1 (hgo r y1 hc)
      exact ⟨r :: rs, y2, b2, by simp [runF, e1, e2], .done hc hr2, h2⟩
    · obtain ⟨rs, y2, b2, e2, hr2, h2⟩ := ih h hroom (href hr)
      exact ⟨.exc :: rs, y2, b2, by simp [runF, e1, e2], .refused hr hr2, h2⟩

/-- the constructor makes the room that was asked for -/
theorem ctor_room (hK : K.Lawful) (n : Nat) (hn : K.Fits n) (b0 : Buf C) :
    ∃ b, ctor K n b0 = .ok () b ∧ Rel K Spec.init b ∧ n ≤ b.cap := by
  have h0 : Rel K (Spec.init : Spec.File C)
      ⟨[], K.cap0, 0, dataPtr K ⟨[], K.cap0, 0, .null, .null, 1⟩, dataPtr K ⟨[], K.cap0, 0, .null, .null, 1⟩, 1⟩ :=
    ⟨fun _ => rfl, fun _ => rfl, by simp [Spec.init], by simp, hK.cap0_fits, by simp [Spec.init], by simp [Spec.init], by simp [Spec.init]⟩
  obtain ⟨b, e, hr, hl⟩ := capResizeBy_ok hK.grows h0 rfl n (by simpa using hn)
  refine ⟨b, ?_, hr, ?_⟩
  · simp only [ctor, bind_apply, set_apply, data_apply, setp, modify_apply]
    exact e
  · have := hr.size
    simp at hl
    omega

/-- C70. Whenever there is no memory — any calls of any history — a write either does what it does otherwise, or it throws and
has no effect: what was written is still there, the position is where it was, and the following calls go on from there. It does
not throw if it stays within what was reserved at construction or written before (and not handed out by `get_container`).
The other calls do not need memory. Missing: the calls excluded by `Spec.Safe` (C28, C29). -/
theorem C70_no_memory_partial (hK : K.Lawful) (n : Nat) (hn : K.Fits n) (ops : List (Bool × Op C))
    (hs : Spec.SafeRuns K n ops Spec.init) :
    ∃ rs y b rest, programF K n ops = some (rs, b) ∧ Spec.Runs K n ops Spec.init rs y ∧
      peekContainer b = .ok (y.data ++ rest) b := by
  obtain ⟨b0, e0, h0, hc0⟩ := ctor_room hK n hn ⟨[], 0, 0, .null, .null, 0⟩
  obtain ⟨rs, y, b, e, hr, hrel⟩ := runF_rel hK h0 hc0 hs
  refine ⟨rs, y, b, b.elems.drop y.data.length, ?_, hr, ?_⟩
  · simp [programF, ctorF, e0, e]
  · simp only [peekContainer, bind_apply, get_apply, pure_apply]
    have : y.data ++ b.elems.drop y.data.length = b.elems := by
      have h := List.take_append_drop y.data.length b.elems
      rw [hrel.elems] at h
      exact h
    rw [this]

/-- The history stays within `room` characters, and does not hand out the container. -/
def Within (room : Nat) (K : Container C) : List (Bool × Op C) → Spec.File C → Prop
  | [], _ => True
  | (_, op) :: ops, y =>
    op ≠ .get ∧ (∀ k, Spec.amount op = some k → y.pos + k ≤ room) ∧
    ∀ r y', Spec.call K op y = some (r, y') → Within room K ops y'

theorem within_runs {room room' : Nat} {ops : List (Bool × Op C)} {y y' : Spec.File C} {rs : List (Reply C)}
    (hw : Within room K ops y) (hle : room ≤ room') (h : Spec.Runs K room' ops y rs y') :
    Spec.run K (ops.map Prod.snd) y = some (rs, y') := by
  induction h with
  | nil => rfl
  | done hc rest ih =>
    rename_i room1 f op ops y r y1 rs y2
    have hle' : room ≤ Spec.roomAfter room1 op y r := by
      unfold Spec.roomAfter
      split
      · exact absurd rfl hw.1
      · exact hle
      · split <;> omega
    simp [Spec.run, hc, ih (hw.2.2 _ _ hc) hle']
  | refused hr rest ih =>
    obtain ⟨_, k, hk, hlt⟩ := hr
    have := hw.2.1 k hk
    omega

theorem within_safe {room room' : Nat} {ops : List (Bool × Op C)} {y : Spec.File C} (hw : Within room K ops y)
    (hle : room ≤ room') (hs : Spec.SafeRun K (ops.map Prod.snd) y) (hd : Spec.run K (ops.map Prod.snd) y ≠ none) :
    Spec.SafeRuns K room' ops y := by
  induction ops generalizing y room' with
  | nil => trivial
  | cons o ops ih =>
    obtain ⟨f, op⟩ := o
    refine ⟨hs.1, ?_, ?_, ?_⟩
    · intro hn
      exact hd (by simp [Spec.run, hn])
    · intro r y' hc
      refine ih (hw.2.2 r y' hc) ?_ (hs.2 r y' hc) ?_
      · unfold Spec.roomAfter
        split
        · exact absurd rfl hw.1
        · exact hle
        · split <;> omega
      · intro hn
        exact hd (by simp [Spec.run, hc, hn])
    · rintro ⟨_, k, hk, hlt⟩
      have := hw.2.1 k hk
      omega

/-- C70. With `reserve` at construction, writing up to that many characters never throws, seeking back, overwriting and `clear`
included, even if no memory is to be had from then on: the replies are those of the file specification. -/
theorem C70_reserved_writes_succeed (hK : K.Lawful) (n : Nat) (hn : K.Fits n) (ops : List (Bool × Op C))
    (rs : List (Reply C)) (y : Spec.File C) (hr : Spec.run K (ops.map Prod.snd) Spec.init = some (rs, y))
    (hs : Spec.SafeRun K (ops.map Prod.snd) Spec.init) (hw : Within n K ops Spec.init) :
    ∃ b, programF K n ops = some (rs, b) := by
  obtain ⟨rs', y', b, _, e, hruns, _⟩ := C70_no_memory_partial hK n hn ops
    (within_safe hw (Nat.le_refl n) hs (by simp [hr]))
  have := within_runs hw (Nat.le_refl n) hruns
  rw [hr, Option.some.injEq, Prod.mk.injEq] at this
  rw [this.1]
  exact ⟨b, e⟩

/-- C70. A write that is refused can be repeated: when memory is there again, it succeeds, and everything is as if it had not
been tried before. -/
theorem C70_retry (hK : K.Lawful) {y : Spec.File C} {b : Buf C} (h : Rel K y b) (op : Op C) (hs : Spec.Safe K op y)
    (r : Reply C) (y' : Spec.File C) (hc : Spec.call K op y = some (r, y')) (b1 : Buf C)
    (hf : callF K true op b = some (.exc, b1)) (hne : r ≠ .exc) :
    b1 = b ∧ ∃ b2, callF K false op b1 = some (r, b2) ∧ Rel K y' b2 := by
  have hb : b1 = b := by
    rcases starved_step hK h (Nat.zero_le _) hs hc with ⟨b', e, _⟩ | ⟨e, _⟩
    · rw [callF, if_pos rfl, e] at hf
      simp only [Option.some.injEq, Prod.mk.injEq] at hf
      exact absurd hf.1 hne
    · rw [callF, if_pos rfl, e] at hf
      simp only [Option.some.injEq, Prod.mk.injEq] at hf
      exact hf.2.symm
  subst hb
  exact ⟨rfl, call_step hK h hs hc⟩

/-- C70. Construction without memory: it succeeds if what is reserved is within the capacity of an empty container, and throws
otherwise. -/
theorem C70_constructor (hK : K.Lawful) (n : Nat) (b0 : Buf C) :
    if n ≤ K.cap0 then ∃ b, ctorF K true n b0 = .ok () b ∧ Rel K Spec.init b
    else ∃ e b, ctorF K true n b0 = .throw e b := by
  have h0 : Rel (K.starved K.cap0) (Spec.init : Spec.File C)
      ⟨[], K.cap0, 0, dataPtr K ⟨[], K.cap0, 0, .null, .null, 1⟩, dataPtr K ⟨[], K.cap0, 0, .null, .null, 1⟩, 1⟩ :=
    ⟨fun _ => rfl, fun _ => rfl, by simp [Spec.init], by simp, (starved_fits _ _).2 (Nat.le_refl _), by simp [Spec.init],
      by simp [Spec.init], by simp [Spec.init]⟩
  split
  · rename_i hn
    obtain ⟨b, e, hr, _⟩ := capResizeBy_ok (starved_grows K _) h0 rfl n ((starved_fits _ _).2 (by simpa using hn))
    refine ⟨b, ?_, hr.feed hK.cap0_fits⟩
    simp only [ctorF, if_true, ctor, bind_apply, set_apply, data_apply, setp, modify_apply]
    exact e
  · rename_i hn
    have := capResizeBy_throw h0 rfl n (fun hf => hn (by simpa using (starved_fits _ _).1 hf))
    refine ⟨.outOfRange,
      ⟨[], K.cap0, 0, dataPtr K ⟨[], K.cap0, 0, .null, .null, 1⟩, dataPtr K ⟨[], K.cap0, 0, .null, .null, 1⟩, 1⟩, ?_⟩
    simp only [ctorF, if_true, ctor, bind_apply, set_apply, data_apply, setp, modify_apply]
    exact this

/-! ### Concrete cases -/

/-- a vector with 4 characters that gets no memory: the fifth is refused, then memory is there again; the same chunk once more -/
def starving : List (Bool × Op Nat) :=
  [(true, .write [1, 2, 3, 4]), (true, .put 5), (true, .write [6, 7]), (true, .seek 1 .beg), (true, .put 9), (false, .seek 4 .beg),
   (false, .write [6, 7]), (true, .poff)]

example : (programF vec 4 starving).map Prod.fst =
    some [.unit, .exc, .exc, .pos 1, .unit, .pos 4, .unit, .pos 6] := by decide +kernel

example : Spec.SafeRuns vec 4 starving Spec.init := by
  have hf : ∀ n, vec.Fits n := by intro n; simp [Container.Fits, vec]
  have hl : Spec.chunkLimit vec = 2147483648 := rfl
  simp [Spec.SafeRuns, Spec.Safe, starving, Spec.call, Spec.init, Spec.File.write, Spec.File.target, Spec.roomAfter,
    Spec.Refused, Spec.amount, hf, hl]

/-- writing, going back, clearing and writing again within the reserved memory -/
def thrifty : List (Bool × Op Nat) :=
  [(true, .write [1, 2, 3]), (true, .put 4), (true, .seek 1 .beg), (true, .write [8, 8]), (true, .clear), (true, .write [5, 6, 7, 8])]

example : (∃ rs y, Spec.run vec (thrifty.map Prod.snd) Spec.init = some (rs, y)) ∧
    Spec.SafeRun vec (thrifty.map Prod.snd) Spec.init ∧ Within 4 vec thrifty Spec.init := by
  have hf : ∀ n, vec.Fits n := by intro n; simp [Container.Fits, vec]
  have hl : Spec.chunkLimit vec = 2147483648 := rfl
  refine ⟨⟨_, _, rfl⟩, ?_, ?_⟩ <;>
  simp [Spec.SafeRun, Within, Spec.Safe, thrifty, Spec.call, Spec.init, Spec.File.write, Spec.File.target, Spec.amount, hf, hl]

/-- a string without memory: 15 characters can be reserved, 16 cannot -/
example : (∃ b, ctorF str true 15 ⟨[], 0, 0, .null, .null, 0⟩ = .ok () b) ∧
    ∃ e b, ctorF str true 16 ⟨[], 0, 0, .null, .null, 0⟩ = .throw e b := ⟨⟨_, rfl⟩, ⟨_, _, rfl⟩⟩

end Itlib.MemOut
