import Verif.Sentry.ReModel
import Mathlib.Data.List.Nodup

/-!
# C74: sentries whose functions make, move and destroy sentries, and throw
-/
namespace Itlib.Sentry
open Itlib Spec
variable {cpp17 : Bool} {keeps : Nat → Bool} {prog : Nat → Body}

/-- the object with this duty, and whether its destructor runs -/
def RHas (cpp17 : Bool) : Option Duty → Option Obj → Bool → Prop
  | none, o, d => o = none ∧ d = false
  | some (.owes n), o, d => o = some ⟨some n, true⟩ ∧ d = false
  | some .free, o, d => cpp17 = false ∧ d = false ∧ ∃ f, o = some ⟨f, false⟩
  | some .busy, o, d => d = true ∧ ∃ f h, o = some ⟨f, h⟩

structure RRel (cpp17 : Bool) (y : RSys) (s : RSt) : Prop where
  user : ∀ x, RHas cpp17 (y.duty x) (s.objs (.user x)) (s.dying (.user x))
  tmp : s.objs .tmp = none ∧ s.dying .tmp = false
  log : s.log = y.log

/-- the model ends as the specification says -/
def OutRel (cpp17 : Bool) (a : ROut RSys) (b : Out) : Prop :=
  match a with
  | .done r y => ∃ s, b = .done r s ∧ RRel cpp17 y s
  | .terminated l => b = .terminated l
  | .nosay => True
  | .unfinished => b = .unfinished

theorem RRel.update {y : RSys} {s : RSt} (h : RRel cpp17 y s) {x : Nat} {q : Option Duty} {o : Option Obj} {d : Bool}
    (ho : RHas cpp17 q o d) {l l' : List Event} (hl : l' = l) :
    RRel cpp17 ⟨Function.update y.duty x q, l⟩
      ⟨Function.update s.objs (.user x) o, Function.update s.dying (.user x) d, l'⟩ := by
  refine ⟨?_, by simpa using h.tmp, hl⟩
  intro x'
  by_cases e : x' = x
  · subst e; simpa using ho
  · simpa [e] using h.user x'

theorem upd_same {α β : Type} [DecidableEq α] {f : α → β} {a : α} {b : β} (h : f a = b) : Function.update f a b = f := by
  rw [← h, Function.update_eq_self]

theorem rstep_refines {bs : Body → RSys → ROut RSys} {bm : Body → RSt → Out}
    (hb : ∀ b y s, RRel cpp17 y s → OutRel cpp17 (bs b y) (bm b s)) (op : ROp) {y : RSys} {s : RSt} (h : RRel cpp17 y s) :
    OutRel cpp17 (rstep cpp17 prog bs op y) (rexec cpp17 keeps prog bm op s) := by
  cases op with
  | create x n throws elided mthrows =>
    simp only [rstep]
    by_cases hx : y.duty x = none
    · have hu := h.user x
      rw [hx] at hu
      obtain ⟨hu1, hu2⟩ := hu
      rw [if_neg (by simp [hx])]
      simp only [rexec, hu1, ne_eq, not_true_eq_false, if_false]
      cases throws with
      | true =>
        simp only [if_true, OutRel, rmakeSentry]
        refine ⟨s, ?_, h⟩
        cases hc : (cpp17 || elided) <;> simp [rctor, Out.andThen]
      | false =>
        simp only [Bool.false_eq_true, if_false, rmakeSentry]
        cases hc : (cpp17 || elided) with
        | true =>
          have : ¬ (mthrows = true ∧ cpp17 = false ∧ elided = false) := by
            rintro ⟨-, rfl, rfl⟩; simp at hc
          rw [if_neg this, if_pos rfl]
          simp only [OutRel, rctor, Bool.false_eq_true, if_false]
          refine ⟨_, rfl, ?_⟩
          have := h.update (x := x) (q := some (.owes n)) (o := some ⟨some n, true⟩) (d := false) ⟨rfl, rfl⟩
            (l := y.log ++ [.made n]) (l' := s.log ++ [.made n]) (by rw [h.log])
          rw [upd_same hu2] at this
          exact this
        | false =>
          obtain ⟨rfl, rfl⟩ : cpp17 = false ∧ elided = false := by simpa using hc
          simp only [Bool.false_eq_true, if_false, and_true]
          cases mthrows with
          | true =>
            simp [OutRel, rctor, Out.andThen, rmoveCtor, h.log]
          | false =>
            simp only [Bool.false_eq_true, if_false, OutRel]
            refine ⟨⟨Function.update s.objs (.user x) (some ⟨some n, true⟩), s.dying, s.log ++ [.made n]⟩, ?_, ?_⟩
            · simp [rctor, Out.andThen, rmoveCtor, RSt.put, rdtor, h.tmp.2]
              funext i
              cases i with
              | tmp => simp [h.tmp.1]
              | user x' => by_cases e : x' = x <;> simp [e]
            · have := h.update (x := x) (q := some (.owes n)) (o := some ⟨some n, true⟩) (d := false) ⟨rfl, rfl⟩
                (l := y.log ++ [.made n]) (l' := s.log ++ [.made n]) (by rw [h.log])
              rw [upd_same hu2] at this
              exact this
    · simp [hx, OutRel]
  | move d s₀ mthrows =>
    simp only [rstep]
    split
    · trivial
    · rename_i hc
      simp only [not_or, ne_eq, Decidable.not_not, Bool.not_eq_true] at hc
      obtain ⟨rfl, hd, hs0, hs1⟩ := hc
      have hud := h.user d
      rw [hd] at hud
      have hsd : s₀ ≠ d := by rintro rfl; exact hs0 hd
      obtain ⟨q, hq⟩ := Option.ne_none_iff_exists'.mp hs0
      obtain ⟨o, ho, hdy, hob⟩ : ∃ o, s.objs (.user s₀) = some o ∧ s.dying (.user s₀) = false ∧
          RHas false (some q) (some ⟨o.func, o.has⟩) false := by
        have := h.user s₀
        rw [hq] at this
        cases q with
        | owes n => exact ⟨_, this.1, this.2, rfl, rfl⟩
        | free => obtain ⟨-, h2, f, hf⟩ := this; exact ⟨_, hf, h2, rfl, rfl, f, rfl⟩
        | busy => exact absurd hq hs1
      simp only [rexec, hud.1, ne_eq, not_true_eq_false, or_self, Bool.false_eq_true, if_false, rmoveCtor, ho]
      cases mthrows with
      | true => simp [OutRel, h.log]
      | false =>
        simp only [Bool.false_eq_true, if_false, OutRel, hq]
        refine ⟨_, rfl, ?_⟩
        have h1 := h.update (x := s₀) (q := some .free) (o := some ⟨leftover keeps o.func, false⟩) (d := false)
          ⟨rfl, rfl, _, rfl⟩ (l := y.log) (l' := s.log) h.log
        rw [upd_same hdy] at h1
        have h2 := h1.update (x := d) hob (l := y.log) (l' := s.log) h.log
        simp only [upd_same (f := s.dying) hud.2] at h2
        have e : (RSt.put (RSt.put (s.put (.user s₀) (some ⟨leftover keeps o.func, o.has⟩)) (.user d) (some ⟨o.func, o.has⟩))
            (.user s₀) (some ⟨leftover keeps o.func, false⟩)) =
            ⟨Function.update (Function.update s.objs (.user s₀) (some ⟨leftover keeps o.func, false⟩)) (.user d)
              (some ⟨o.func, o.has⟩), s.dying, s.log⟩ := by
          simp only [RSt.put, RSt.mk.injEq, and_true]
          funext i
          by_cases e : i = .user d
          · subst e; simp [hsd.symm]
          · by_cases e' : i = .user s₀
            · subst e'; simp [e]
            · simp [e, e']
        rw [e]
        exact h2
  | destroy x =>
    simp only [rstep]
    have hu := h.user x
    cases hx : y.duty x with
    | none => trivial
    | some q =>
      rw [hx] at hu
      cases q with
      | busy => trivial
      | free =>
        obtain ⟨rfl, hd, f, hf⟩ := hu
        simp only [OutRel, rexec, rdtor, hf, hd, Bool.false_eq_true, if_false, Bool.or_self, Out.andThen]
        refine ⟨_, rfl, ?_⟩
        have := h.update (x := x) (q := none) (o := none) (d := false) ⟨rfl, rfl⟩ (l := y.log) (l' := s.log) h.log
        simpa [RSt.put] using this
      | owes n =>
        obtain ⟨ho, hd⟩ := hu
        have h1 : RRel cpp17 ⟨Function.update y.duty x (some .busy), y.log ++ [.ran n]⟩
            { s with dying := Function.update s.dying (.user x) true, log := s.log ++ [.ran n] } := by
          have := h.update (x := x) (q := some .busy) (o := some ⟨some n, true⟩) (d := true) ⟨rfl, _, _, rfl⟩
            (l := y.log ++ [.ran n]) (l' := s.log ++ [.ran n]) (by rw [h.log])
          rw [upd_same ho] at this
          exact this
        have h2 := hb (prog n) _ _ h1
        simp only [rexec, rdtor, ho, hd, Bool.false_eq_true, if_false, Bool.or_true, if_true, rcall]
        cases e : bs (prog n) ⟨Function.update y.duty x (some .busy), y.log ++ [.ran n]⟩ with
        | done r y' =>
          rw [e] at h2
          obtain ⟨s', e', h3⟩ := h2
          rw [e']
          cases r with
          | done =>
            simp only [Out.andThen, OutRel]
            refine ⟨_, rfl, ?_⟩
            exact h3.update (x := x) (q := none) (o := none) (d := false) ⟨rfl, rfl⟩ (l := y'.log ++ [.left n])
              (l' := s'.log ++ [.left n]) (by rw [h3.log])
          | exc => simp [Out.andThen, OutRel, h3.log]
        | terminated l =>
          rw [e] at h2
          simp only [OutRel] at h2
          simp [h2, Out.andThen, OutRel]
        | nosay => trivial
        | unfinished =>
          rw [e] at h2
          simp only [OutRel] at h2
          simp [h2, Out.andThen, OutRel]

theorem mbody_refines {cs : ROp → RSys → ROut RSys} {cm : ROp → RSt → Out}
    (hc : ∀ o y s, RRel cpp17 y s → OutRel cpp17 (cs o y) (cm o s)) (b : Body) {y : RSys} {s : RSt} (h : RRel cpp17 y s) :
    OutRel cpp17 (rbody cs b y) (mbody cm b s) := by
  induction b generalizing y s with
  | ret => exact ⟨s, rfl, h⟩
  | throw => exact ⟨s, rfl, h⟩
  | op o k ih =>
    have h1 := hc o y s h
    simp only [rbody, mbody]
    cases e : cs o y with
    | done r y' =>
      rw [e] at h1
      obtain ⟨s', e', h2⟩ := h1
      rw [e']
      exact ih r h2
    | terminated l =>
      rw [e] at h1
      simp only [OutRel] at h1
      simp [h1, OutRel]
    | nosay => trivial
    | unfinished =>
      rw [e] at h1
      simp only [OutRel] at h1
      simp [h1, OutRel]

theorem mrun_refines (d : Nat) (b : Body) {y : RSys} {s : RSt} (h : RRel cpp17 y s) :
    OutRel cpp17 (rrun cpp17 prog d b y) (mrun cpp17 keeps prog d b s) := by
  induction d generalizing b y s with
  | zero => exact mbody_refines (fun o _ _ h => rstep_refines (bs := fun _ _ => .unfinished) (bm := fun _ _ => .unfinished) (fun _ _ _ _ => rfl) o h) b h
  | succ d ih => exact mbody_refines (fun o _ _ h => rstep_refines (fun b _ _ h => ih b h) o h) b h

theorem rrel_initial : RRel cpp17 rstart rinitial := ⟨fun _ => ⟨rfl, rfl⟩, ⟨rfl, rfl⟩, rfl⟩

/-- **C74.** Every program with sentries, in either language version, whose functions make, move and destroy sentries and may
throw, nested however deep: if sentries are used as the specification allows, nothing undefined happens, and what is observed
is what the specification says; the program ends by `std::terminate` exactly when the specification says so. -/
theorem C74_sentry_programs (d : Nat) (b : Body) (hok : rrun cpp17 prog d b rstart ≠ .nosay) :
    match rrun cpp17 prog d b rstart with
    | .done r y => ∃ s, mrun cpp17 keeps prog d b rinitial = .done r s ∧ s.log = y.log ∧
        ∀ x, (s.objs (.user x) = none ↔ y.duty x = none)
    | .terminated l => mrun cpp17 keeps prog d b rinitial = .terminated l
    | .unfinished => mrun cpp17 keeps prog d b rinitial = .unfinished
    | .nosay => False := by
  have h := mrun_refines (keeps := keeps) (prog := prog) d b (rrel_initial (cpp17 := cpp17))
  cases e : rrun cpp17 prog d b rstart with
  | done r y =>
    rw [e] at h
    obtain ⟨s, e', h⟩ := h
    refine ⟨s, e', h.log, fun x => ?_⟩
    have := h.user x
    rcases hd : y.duty x with _ | n | _ | _ <;> rw [hd] at this
    · simp [this.1]
    · simp [this.1]
    · obtain ⟨-, -, f, hf⟩ := this; simp [hf]
    · obtain ⟨-, f, g, hf⟩ := this; simp [hf]
  | terminated l => rw [e] at h; exact h
  | unfinished => rw [e] at h; exact h
  | nosay => exact hok e

theorem rdtor_more {b1 b2 : Body → RSt → Out} (hb : ∀ b s, b1 b s ≠ .unfinished → b2 b s = b1 b s) (i : Loc) (s : RSt)
    (h : rdtor cpp17 prog b1 i s ≠ .unfinished) : rdtor cpp17 prog b2 i s = rdtor cpp17 prog b1 i s := by
  have key : ∀ f t, rcall prog b1 f t ≠ .unfinished → rcall prog b2 f t = rcall prog b1 f t := by
    intro f t h
    cases f with
    | none => rfl
    | some n =>
      simp only [rcall] at h ⊢
      rw [hb]
      intro e
      simp [e] at h
  simp only [rdtor] at h ⊢
  split
  · rfl
  · rename_i o e
    rw [e] at h
    simp only at h
    split
    · rfl
    · rename_i e1
      simp only [e1, Bool.false_eq_true, if_false] at h
      split
      · rename_i e2
        simp only [e2, if_true] at h
        rw [key]
        intro e
        simp [e, Out.andThen] at h
      · rfl

theorem rexec_more {b1 b2 : Body → RSt → Out} (hb : ∀ b s, b1 b s ≠ .unfinished → b2 b s = b1 b s) (o : ROp) (s : RSt)
    (h : rexec cpp17 keeps prog b1 o s ≠ .unfinished) : rexec cpp17 keeps prog b2 o s = rexec cpp17 keeps prog b1 o s := by
  cases o with
  | create x n throws elided mthrows =>
    simp only [rexec, rmakeSentry] at h ⊢
    split
    · rfl
    · rename_i e
      rw [if_neg e] at h
      split
      · rfl
      · rename_i e1
        rw [if_neg e1] at h
        cases h1 : rctor .tmp n throws s with
        | done r t =>
          cases r with
          | done =>
            simp only [h1, Out.andThen] at h ⊢
            cases h2 : rmoveCtor keeps (.user x) .tmp mthrows t with
            | done r u =>
              cases r with
              | done =>
                simp only [h2] at h ⊢
                exact rdtor_more hb _ _ h
              | exc => rfl
            | _ => rfl
          | exc => rfl
        | _ => rfl
  | move d s₀ mthrows => rfl
  | destroy x => exact rdtor_more hb _ _ h

theorem mbody_more {c1 c2 : ROp → RSt → Out} (hc : ∀ o s, c1 o s ≠ .unfinished → c2 o s = c1 o s) (b : Body) (s : RSt)
    (h : mbody c1 b s ≠ .unfinished) : mbody c2 b s = mbody c1 b s := by
  induction b generalizing s with
  | ret => rfl
  | throw => rfl
  | op o k ih =>
    simp only [mbody] at h ⊢
    have h1 : c1 o s ≠ .unfinished := by
      intro e
      simp [e] at h
    rw [hc o s h1]
    cases e : c1 o s with
    | done r t =>
      rw [e] at h
      exact ih r t h
    | _ => rfl

/-- **C74, the nesting depth considered does not matter** for a program that ends within it. -/
theorem C74_depth (d e : Nat) (b : Body) (s : RSt) (h : mrun cpp17 keeps prog d b s ≠ .unfinished) (hde : d ≤ e) :
    mrun cpp17 keeps prog e b s = mrun cpp17 keeps prog d b s := by
  induction d generalizing b s e with
  | zero =>
    cases e with
    | zero => rfl
    | succ e => exact mbody_more (fun o s => rexec_more (fun _ _ h => absurd rfl h) o s) b s h
  | succ d ih =>
    cases e with
    | zero => omega
    | succ e => exact mbody_more (fun o s => rexec_more (fun b s h => ih e b s h (by omega)) o s) b s h

/-- a list of calls as a program that does not look at how they end -/
def seq : List ROp → Body
  | [] => .ret
  | o :: os => .op o fun _ => seq os

/-- function 1 makes a sentry for function 2, moves the duty of sentry 5 to sentry 6, and destroys both; function 3 throws -/
def demoProg : Nat → Body
  | 1 => seq [.create 7 2 false false false, .move 6 5 false, .destroy 6, .destroy 7]
  | 3 => .throw
  | _ => .ret

example : ∃ y, rrun false demoProg 3 (seq [.create 5 4 false true false, .create 0 1 false false true, .create 0 1 true false false,
      .destroy 0]) rstart = .terminated y := ⟨_, rfl⟩

example : ∃ y, rrun false demoProg 3 (seq [.create 5 4 false true false, .create 0 1 false false false, .destroy 0, .destroy 5])
      rstart = .done .done y ∧
    y.log = [.made 4, .made 1, .ran 1, .made 2, .ran 4, .left 4, .ran 2, .left 2, .left 1] ∧ ∀ x, y.duty x = none := by
  refine ⟨_, rfl, rfl, fun x => ?_⟩
  simp [Function.update_apply, rstart]
  aesop

example : rrun true demoProg 3 (seq [.create 5 4 false true false, .create 0 3 false false true, .destroy 0, .destroy 5]) rstart =
    .terminated [.made 4, .made 3, .ran 3] := rfl

example : (match mrun false (fun _ => true) demoProg 2 (seq [.create 5 4 false true false, .create 0 1 false false false, .destroy 0,
    .destroy 5]) rinitial with | .done .done s => s.log.length | _ => 0) = 9 := by decide +kernel

/-- one duty per function object made, less those done -/
def RBal (y : RSys) : Prop :=
  ∀ n, ∃ l : List Nat, l.Nodup ∧ (∀ x, x ∈ l ↔ y.duty x = some (.owes n)) ∧ y.log.count (.ran n) + l.length = y.log.count (.made n)

/-- what a call or a function does to the balance -/
def Keeps (y : RSys) : ROut RSys → Prop
  | .done _ y' => RBal y' ∧ ∀ x, y.duty x = some .busy → y'.duty x = some .busy
  | .terminated l => ∀ n, l.count (.ran n) ≤ l.count (.made n)
  | _ => True

theorem RBal.le {y : RSys} (h : RBal y) (n : Nat) : y.log.count (.ran n) ≤ y.log.count (.made n) := by
  obtain ⟨l, -, -, h⟩ := h n
  omega

theorem rstep_keeps {bs : Body → RSys → ROut RSys} (hb : ∀ b y, RBal y → Keeps y (bs b y)) (op : ROp) {y : RSys} (h : RBal y) :
    Keeps y (rstep cpp17 prog bs op y) := by
  cases op with
  | create x m throws elided mthrows =>
    simp only [rstep]
    by_cases hx : y.duty x = none
    · rw [if_neg (by simp [hx])]
      split
      · exact ⟨h, fun _ h => h⟩
      · split
        · intro n
          have := h.le n
          simp only [List.count_append]
          have e : List.count (Event.ran n) [Event.made m] = 0 := by simp
          omega
        · refine ⟨fun n => ?_, fun x' hx' => ?_⟩
          · obtain ⟨l, h1, h2, h3⟩ := h n
            have hxl : x ∉ l := by rw [h2, hx]; simp
            have e0 : List.count (Event.ran n) [Event.made m] = 0 := by simp
            by_cases e : m = n
            · subst e
              refine ⟨x :: l, List.nodup_cons.mpr ⟨hxl, h1⟩, ?_, ?_⟩
              · intro x'
                by_cases e : x' = x
                · subst e; simp
                · simp [e, h2]
              · simp only [List.count_append, e0, List.length_cons, List.count_singleton_self]
                omega
            · refine ⟨l, h1, ?_, ?_⟩
              · intro x'
                by_cases e' : x' = x
                · subst e'; simp [hxl, e]
                · simp [e', h2]
              · have e1 : List.count (Event.made n) [Event.made m] = 0 := by
                  simp [e]
                simp only [List.count_append, e0, e1]
                omega
          · have : x' ≠ x := by rintro rfl; simp [hx] at hx'
            simpa [this] using hx'
    · simp [hx, Keeps]
  | move d s mthrows =>
    simp only [rstep]
    split
    · trivial
    · rename_i hc
      simp only [not_or, ne_eq, Decidable.not_not, Bool.not_eq_true] at hc
      obtain ⟨-, hd, hs0, hs1⟩ := hc
      split
      · exact h.le
      · have hsd : s ≠ d := by rintro rfl; exact hs0 hd
        refine ⟨fun n => ?_, fun x' hx' => ?_⟩
        · obtain ⟨l, h1, h2, h3⟩ := h n
          have hdl : d ∉ l := by rw [h2, hd]; simp
          by_cases e : y.duty s = some (.owes n)
          · have hsl : s ∈ l := (h2 s).mpr e
            refine ⟨d :: l.erase s, List.nodup_cons.mpr ⟨fun h => hdl (List.mem_of_mem_erase h), h1.erase s⟩, ?_, ?_⟩
            · intro x'
              rw [List.mem_cons, h1.mem_erase_iff, h2]
              by_cases e1 : x' = d
              · subst e1; simp [e]
              · by_cases e2 : x' = s
                · subst e2; simp [e1]
                · simp [e1, e2]
            · have := List.length_pos_of_mem hsl
              simp only [List.length_cons, List.length_erase_of_mem hsl]
              omega
          · have hsl : s ∉ l := by rw [h2]; exact e
            refine ⟨l, h1, ?_, h3⟩
            intro x'
            rw [h2]
            by_cases e1 : x' = d
            · subst e1; simp [e, hd]
            · by_cases e2 : x' = s
              · subst e2; simp [e1, e]
              · simp [e1, e2]
        · have h1 : x' ≠ d := by rintro rfl; simp [hd] at hx'
          have h2 : x' ≠ s := by rintro rfl; exact hs1 hx'
          simpa [h1, h2] using hx'
  | destroy x =>
    simp only [rstep]
    cases hx : y.duty x with
    | none => trivial
    | some q =>
      cases q with
      | busy => trivial
      | free =>
        refine ⟨fun n => ?_, fun x' hx' => ?_⟩
        · obtain ⟨l, h1, h2, h3⟩ := h n
          have hxl : x ∉ l := by rw [h2, hx]; simp
          refine ⟨l, h1, ?_, h3⟩
          intro x'
          by_cases e : x' = x
          · subst e; simp [hxl]
          · simp [e, h2]
        · have : x' ≠ x := by rintro rfl; simp [hx] at hx'
          simpa [this] using hx'
      | owes m =>
        have h1 : RBal ⟨Function.update y.duty x (some .busy), y.log ++ [.ran m]⟩ := by
          intro n
          obtain ⟨l, h1, h2, h3⟩ := h n
          have e0 : List.count (Event.made n) [Event.ran m] = 0 := by simp
          by_cases e : m = n
          · subst e
            have hxl : x ∈ l := (h2 x).mpr hx
            refine ⟨l.erase x, h1.erase x, ?_, ?_⟩
            · intro x'
              rw [h1.mem_erase_iff, h2]
              by_cases e1 : x' = x
              · subst e1; simp
              · simp [e1]
            · have := List.length_pos_of_mem hxl
              simp only [List.length_erase_of_mem hxl, List.count_append, e0, List.count_singleton_self]
              omega
          · have hxl : x ∉ l := by rw [h2, hx]; simpa using e
            refine ⟨l, h1, ?_, ?_⟩
            · intro x'
              by_cases e1 : x' = x
              · subst e1; simp [hxl]
              · simp [e1, h2]
            · have e1 : List.count (Event.ran n) [Event.ran m] = 0 := by simp [e]
              simp only [List.count_append, e0, e1]
              omega
        have h2 := hb (prog m) _ h1
        simp only
        cases e : bs (prog m) ⟨Function.update y.duty x (some .busy), y.log ++ [.ran m]⟩ with
        | done r y' =>
          rw [e] at h2
          obtain ⟨h3, h4⟩ := h2
          cases r with
          | exc => exact h3.le
          | done =>
            have hxb : y'.duty x = some .busy := h4 x (by simp)
            refine ⟨fun n => ?_, fun x' hx' => ?_⟩
            · obtain ⟨l, h5, h6, h7⟩ := h3 n
              have hxl : x ∉ l := by rw [h6, hxb]; simp
              have e0 : List.count (Event.made n) [Event.left m] = 0 := by simp
              have e1 : List.count (Event.ran n) [Event.left m] = 0 := by simp
              refine ⟨l, h5, ?_, ?_⟩
              · intro x'
                by_cases e : x' = x
                · subst e; simp [hxl]
                · simp [e, h6]
              · simp only [List.count_append, e0, e1]
                omega
            · have : x' ≠ x := by rintro rfl; simp [hx] at hx'
              simpa [this] using h4 x' (by simpa [this] using hx')
        | terminated l => rw [e] at h2; exact h2
        | nosay => trivial
        | unfinished => trivial

theorem rbody_keeps {cs : ROp → RSys → ROut RSys} (hc : ∀ o y, RBal y → Keeps y (cs o y)) (b : Body) {y : RSys} (h : RBal y) :
    Keeps y (rbody cs b y) := by
  induction b generalizing y with
  | ret => exact ⟨h, fun _ h => h⟩
  | throw => exact ⟨h, fun _ h => h⟩
  | op o k ih =>
    have h1 := hc o y h
    simp only [rbody]
    cases e : cs o y with
    | done r y' =>
      rw [e] at h1
      have h2 := ih r h1.1
      simp only
      cases e' : rbody cs (k r) y' with
      | done r' y'' =>
        rw [e'] at h2
        exact ⟨h2.1, fun x hx => h2.2 x (h1.2 x hx)⟩
      | terminated l => rw [e'] at h2; exact h2
      | nosay => trivial
      | unfinished => trivial
    | terminated l => rw [e] at h1; exact h1
    | nosay => trivial
    | unfinished => trivial

theorem rrun_keeps (d : Nat) (b : Body) {y : RSys} (h : RBal y) : Keeps y (rrun cpp17 prog d b y) := by
  induction d generalizing b y with
  | zero => exact rbody_keeps (fun o _ h => rstep_keeps (bs := fun _ _ => .unfinished) (fun _ _ _ => trivial) o h) b h
  | succ d ih => exact rbody_keeps (fun o _ h => rstep_keeps (fun b _ h => ih b h) o h) b h

/-- **C74, exactly once.** In all these programs no function is entered more often than function objects were made for it, not
even if the program is terminated; if all sentries are gone, it was entered exactly as often. -/
theorem C74_exactly_once (d : Nat) (b : Body) (hok : rrun cpp17 prog d b rstart ≠ .nosay) :
    match mrun cpp17 keeps prog d b rinitial with
    | .done _ s => (∀ n, s.log.count (.ran n) ≤ s.log.count (.made n)) ∧
        ((∀ x, s.objs (.user x) = none) → ∀ n, s.log.count (.ran n) = s.log.count (.made n))
    | .terminated l => ∀ n, l.count (.ran n) ≤ l.count (.made n)
    | .ub => False
    | .unfinished => True := by
  have hb : RBal rstart := fun n => ⟨[], by simp, by simp [rstart], by simp [rstart]⟩
  have hk := rrun_keeps (cpp17 := cpp17) (prog := prog) d b hb
  have h := C74_sentry_programs (keeps := keeps) (prog := prog) (cpp17 := cpp17) d b hok
  cases e : rrun cpp17 prog d b rstart with
  | done r y =>
    rw [e] at h hk
    obtain ⟨s, e', hl, hx⟩ := h
    rw [e']
    obtain ⟨hk, -⟩ := hk
    refine ⟨fun n => by rw [hl]; exact hk.le n, fun hn n => ?_⟩
    obtain ⟨l, -, h2, h3⟩ := hk n
    have : l = [] := by
      rw [List.eq_nil_iff_forall_not_mem]
      intro x hxl
      rw [h2, (hx x).mp (hn x)] at hxl
      cases hxl
    subst this
    rw [hl]
    simpa using h3
  | terminated l =>
    rw [e] at h hk
    simp only at h
    rw [h]
    exact hk
  | unfinished =>
    rw [e] at h
    simp only at h
    rw [h]
    trivial
  | nosay => exact absurd e hok

example : rrun false demoProg 3 (seq [.create 5 4 false true false, .create 0 1 false false false, .destroy 0, .destroy 5])
    rstart ≠ .nosay := by
  simp [rrun, rbody, rstep, seq, demoProg, rstart]

/-- **C74 (defect): a function that moves the sentry that runs it.** The moved sentry still has the duty (`m_has_func` is not
reset before the call), so that the function runs a second time. Here for every function that does just that, once. -/
theorem C74_defect_moves_own_sentry (keeps : Nat → Bool) (d : Nat) (f : Nat → Body) (n : Nat)
    (hf : f n = .op (.move 1 0 false) fun _ => .ret) :
    ∃ s, mrun false keeps f (d + 1) (seq [.create 0 n false true false, .destroy 0]) rinitial = .done .done s ∧
      s.objs (.user 1) = some ⟨some n, true⟩ ∧ s.log = [.made n, .ran n, .left n] := by
  cases d <;> simp [mrun, seq, mbody, rexec, rmakeSentry, rctor, rinitial, rdtor, rcall, hf, rmoveCtor, Out.andThen, RSt.put]

example : ∃ f : Nat → Body, f 3 = .op (.move 1 0 false) fun _ => .ret := ⟨fun _ => _, rfl⟩

end Itlib.Sentry
