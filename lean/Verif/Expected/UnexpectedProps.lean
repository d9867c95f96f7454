import Verif.Expected.UnexpectedSpec
import Verif.Expected.Props

/-!
# Property C63: unexpected takes the error it is given

The specification is in `UnexpectedSpec.lean`. It holds for temporaries and `std::move`; for variables only if they are left alone as
long as the `unexpected_t` is, and if moving from them would change nothing or they are const. Otherwise `expected` moves from the
variable.
-/
namespace Itlib.Expected
open Itlib

section
variable {O V E F : Type}

/-- an `unexpected_t` and what it stands for -/
def PkgRel (vars : Nat → Option F) : Option (Option (Spec.Full F)) → Option (Pkg F) → Prop
  | none, k => k = none
  | some none, k => k ≠ none
  | some (some ⟨f, none⟩), k => k = some (.own f)
  | some (some ⟨f, some (x, false)⟩), k => k = some (.ref x) ∧ vars x = some f
  | some (some ⟨f, some (x, true)⟩), k => k = some (.cref x) ∧ vars x = some f

/-- the memory represents a state of the specification -/
structure URel (rep : V ⊕ E → O) (dead : O → Prop) (y : Spec.USys V E F) (w : World O F) : Prop where
  vars : w.vars = y.vars
  pkgs : ∀ p, PkgRel y.vars (y.pkgs p) (w.pkgs p)
  objs : ∃ g, (∀ o ∈ g, dead o) ∧ w.objs = mrep rep y.objs g

theorem PkgRel.vars_change {vars vars' : Nat → Option F} {a : Option (Option (Spec.Full F))} {k : Option (Pkg F)}
    (h : PkgRel vars a k) (hv : ∀ b x c, a = some (some b) → b.lent = some (x, c) → vars' x = vars x) : PkgRel vars' a k := by
  match a, h with
  | none, h => exact h
  | some none, h => exact h
  | some (some ⟨f, none⟩), h => exact h
  | some (some ⟨f, some (x, false)⟩), h => exact ⟨h.1, (hv _ x false rfl rfl).trans h.2⟩
  | some (some ⟨f, some (x, true)⟩), h => exact ⟨h.1, (hv _ x true rfl rfl).trans h.2⟩

theorem PkgRel.none_iff {vars : Nat → Option F} {a : Option (Option (Spec.Full F))} {k : Option (Pkg F)}
    (h : PkgRel vars a k) : k = none ↔ a = none := by
  match a, h with
  | none, h => exact ⟨fun _ => rfl, fun _ => h⟩
  | some none, h => exact ⟨fun e => (h e).elim, fun e => by cases e⟩
  | some (some ⟨f, none⟩), h => cases h; simp
  | some (some ⟨f, some (x, false)⟩), h => obtain ⟨rfl, _⟩ := h; simp
  | some (some ⟨f, some (x, true)⟩), h => obtain ⟨rfl, _⟩ := h; simp

/-- the packages after a change of one of them -/
theorem pkgs_update {vars : Nat → Option F} {a : Nat → Option (Option (Spec.Full F))} {k : Nat → Option (Pkg F)}
    (h : ∀ p, PkgRel vars (a p) (k p)) (p : Nat) {b : Option (Option (Spec.Full F))} {l : Option (Pkg F)} (hb : PkgRel vars b l) (q : Nat) :
    PkgRel vars (Function.update a p b q) (Function.update k p l q) := by
  by_cases e : q = p
  · subst e; simpa using hb
  · simpa [Function.update_of_ne e] using h q

/-- the packages after a change of a variable that is not lent -/
theorem pkgs_vars {y : Spec.USys V E F} {k : Nat → Option (Pkg F)} (h : ∀ p, PkgRel y.vars (y.pkgs p) (k p)) {x : Nat}
    (hx : ¬ Spec.Lent y x) (f : Option F) (p : Nat) : PkgRel (Function.update y.vars x f) (y.pkgs p) (k p) := by
  refine (h p).vars_change fun b z c hb hl => ?_
  have : z ≠ x := by rintro rfl; exact hx ⟨p, b, c, hb, hl⟩
  exact Function.update_of_ne this _ _

variable {k : Kind} {tv : Ty V} {te : Ty E} {src : Src F E} {rep : V ⊕ E → O} {dead : O → Prop}
  {exec : Op V E → M (Store O) (Reply V E)}

/-- what is proved about each class in `Lemmas.lean` -/
def Refines (k : Kind) (tv : Ty V) (te : Ty E) (rep : V ⊕ E → O) (dead : O → Prop) (exec : Op V E → M (Store O) (Reply V E)) : Prop :=
  ∀ (op : Op V E) (y y' : Spec.Sys V E) (r : Reply V E) (g : List O), (∀ o ∈ g, dead o) → Spec.Safe k op y →
      Spec.step tv te k op y = some (r, y') →
      ∃ g', (∀ o ∈ g', dead o) ∧ caught (exec op) (mrep rep y g) = some (r, mrep rep y' g')

theorem onObjs_refines (hstep : Refines k tv te rep dead exec) {op : Op V E} {y y' : Spec.Sys V E} {r : Reply V E} {w : World O F}
    (h : ∃ g, (∀ o ∈ g, dead o) ∧ w.objs = mrep rep y g) (hs : Spec.Safe k op y) (he : Spec.step tv te k op y = some (r, y')) :
    ∃ s, onObjs (F := F) exec op w = .ok (.of r) { w with objs := s } ∧ ∃ g, (∀ o ∈ g, dead o) ∧ s = mrep rep y' g := by
  obtain ⟨g, hg, e⟩ := h
  obtain ⟨g', hg', e'⟩ := hstep op y y' r g hg hs he
  exact ⟨_, by simp [onObjs, e, e'], g', hg', rfl⟩

theorem ustep_refines (hstep : Refines k tv te rep dead exec) (op : UOp V E F) (y y' : Spec.USys V E F) (r : UReply V E F)
    (w : World O F) (h : URel rep dead y w) (hsafe : Spec.USafe src k op y) (hs : Spec.ustep tv te src k op y = some (r, y')) :
    ∃ w', uexec src exec op w = .ok r w' ∧ URel rep dead y' w' := by
  have hv : ∀ x, w.vars x = y.vars x := fun x => by rw [h.vars]
  cases op with
  | newVar x f =>
    simp only [Spec.ustep] at hs
    cases hx : y.vars x with
    | some _ => simp [hx] at hs
    | none =>
      simp only [hx, Option.some.injEq, Prod.mk.injEq] at hs
      obtain ⟨rfl, rfl⟩ := hs
      refine ⟨{ w with vars := Function.update w.vars x (some f) }, by simp [uexec, hv, hx], by simp [h.vars], fun p => ?_, h.objs⟩
      refine (h.pkgs p).vars_change fun b z c hb hl => ?_
      have : z ≠ x := by
        rintro rfl
        have hp := h.pkgs p
        obtain ⟨bf, bl⟩ := b
        obtain rfl : bl = some (z, c) := hl
        rw [hb] at hp
        cases c <;> simp [PkgRel, hx] at hp
      exact Function.update_of_ne this _ _
  | setVar x f =>
    simp only [Spec.ustep] at hs
    cases hx : y.vars x with
    | none => simp [hx] at hs
    | some _ =>
      simp only [hx, Option.some.injEq, Prod.mk.injEq] at hs
      obtain ⟨rfl, rfl⟩ := hs
      exact ⟨{ w with vars := Function.update w.vars x (some f) }, by simp [uexec, wrVar, rdVar, M.load, M.modify, hv, hx],
        by simp [h.vars], pkgs_vars h.pkgs hsafe _, h.objs⟩
  | getVar x =>
    simp only [Spec.ustep] at hs
    cases hx : y.vars x with
    | none => simp [hx] at hs
    | some f =>
      simp only [hx, Option.some.injEq, Prod.mk.injEq] at hs
      obtain ⟨rfl, rfl⟩ := hs
      exact ⟨w, by simp [uexec, rdVar, M.load, hv, hx], h⟩
  | endVar x =>
    simp only [Spec.ustep] at hs
    cases hx : y.vars x with
    | none => simp [hx] at hs
    | some _ =>
      simp only [hx, Option.some.injEq, Prod.mk.injEq] at hs
      obtain ⟨rfl, rfl⟩ := hs
      exact ⟨{ w with vars := Function.update w.vars x none }, by simp [uexec, rdVar, M.load, M.modify, hv, hx],
        by simp [h.vars], pkgs_vars h.pkgs hsafe _, h.objs⟩
  | wrapRvalue p x =>
    simp only [Spec.ustep] at hs
    cases hx : y.vars x with
    | none => simp [hx] at hs
    | some f =>
      cases hp : y.pkgs p with
      | some _ => simp [hx, hp] at hs
      | none =>
        simp only [hx, hp, Option.some.injEq, Prod.mk.injEq] at hs
        obtain ⟨rfl, rfl⟩ := hs
        have hw : w.pkgs p = none := (h.pkgs p).none_iff.2 hp
        refine ⟨{ w with vars := Function.update w.vars x (some (src.mv f)), pkgs := Function.update w.pkgs p (some (.own f)) },
          by simp [uexec, wrapRvalue, wrVar, rdVar, beginPkg, M.load, M.modify, hv, hx, hw], by simp [h.vars], fun q => ?_, h.objs⟩
        exact pkgs_update (pkgs_vars h.pkgs hsafe _) p (b := some (some ⟨f, none⟩)) (l := some (.own f)) rfl q
  | wrapLvalue p x =>
    simp only [Spec.ustep, Spec.lend] at hs
    cases hx : y.vars x with
    | none => simp [hx] at hs
    | some f =>
      cases hp : y.pkgs p with
      | some _ => simp [hx, hp] at hs
      | none =>
        simp only [hx, hp, Option.some.injEq, Prod.mk.injEq] at hs
        obtain ⟨rfl, rfl⟩ := hs
        have hw : w.pkgs p = none := (h.pkgs p).none_iff.2 hp
        exact ⟨{ w with pkgs := Function.update w.pkgs p (some (.ref x)) },
          by simp [uexec, wrapLvalue, rdVar, beginPkg, M.load, hv, hx, hw], h.vars, pkgs_update h.pkgs p ⟨rfl, hx⟩, h.objs⟩
  | wrapConst p x =>
    simp only [Spec.ustep, Spec.lend] at hs
    cases hx : y.vars x with
    | none => simp [hx] at hs
    | some f =>
      cases hp : y.pkgs p with
      | some _ => simp [hx, hp] at hs
      | none =>
        simp only [hx, hp, Option.some.injEq, Prod.mk.injEq] at hs
        obtain ⟨rfl, rfl⟩ := hs
        have hw : w.pkgs p = none := (h.pkgs p).none_iff.2 hp
        exact ⟨{ w with pkgs := Function.update w.pkgs p (some (.cref x)) },
          by simp [uexec, wrapConst, rdVar, beginPkg, M.load, hv, hx, hw], h.vars, pkgs_update h.pkgs p ⟨rfl, hx⟩, h.objs⟩
  | copyPkg p q =>
    simp only [Spec.ustep] at hs
    cases hp : y.pkgs p with
    | some _ => simp [hp] at hs
    | none =>
      rcases hq : y.pkgs q with _ | _ | a
      · simp [hp, hq] at hs
      · simp [hp, hq] at hs
      · simp only [hp, hq, Option.some.injEq, Prod.mk.injEq] at hs
        obtain ⟨rfl, rfl⟩ := hs
        have hw : w.pkgs p = none := (h.pkgs p).none_iff.2 hp
        have hk := h.pkgs q
        rw [hq] at hk
        obtain ⟨l, hl⟩ : ∃ l, w.pkgs q = some l := by
          cases e : w.pkgs q with
          | none => rw [e] at hk; exact absurd (hk.none_iff.1 rfl) (by simp)
          | some l => exact ⟨l, rfl⟩
        rw [hl] at hk
        exact ⟨{ w with pkgs := Function.update w.pkgs p (some l) },
          by simp [uexec, copyPkg, rdPkg, beginPkg, M.load, hl, hw], h.vars, pkgs_update h.pkgs p hk, h.objs⟩
  | movePkg p q =>
    simp only [Spec.ustep] at hs
    cases hp : y.pkgs p with
    | some _ => simp [hp] at hs
    | none =>
      rcases hq : y.pkgs q with _ | _ | ⟨f, lent⟩
      · simp [hp, hq] at hs
      · simp [hp, hq] at hs
      · simp only [hp, hq, Option.some.injEq, Prod.mk.injEq] at hs
        obtain ⟨rfl, rfl⟩ := hs
        have hw : w.pkgs p = none := (h.pkgs p).none_iff.2 hp
        have hpq : p ≠ q := by rintro rfl; rw [hp] at hq; cases hq
        have hk := h.pkgs q
        rw [hq] at hk
        rcases lent with _ | ⟨x, _ | _⟩
        · have hl : w.pkgs q = some (.own f) := hk
          refine ⟨{ w with pkgs := Function.update (Function.update w.pkgs q (some (.own (src.mv f)))) p (some (.own f)) }, ?_, h.vars,
            pkgs_update (pkgs_update h.pkgs q (b := some none) ?_) p ?_, h.objs⟩
          · simp [uexec, movePkg, rdPkg, wrPkg, beginPkg, M.load, M.modify, hl, hw, Function.update_of_ne hpq]
          · simp [PkgRel]
          · simp [PkgRel]
        · have hl : w.pkgs q = some (.ref x) := hk.1
          refine ⟨{ w with pkgs := Function.update w.pkgs p (some (.ref x)) }, ?_, h.vars, fun p' => ?_, h.objs⟩
          · simp [uexec, movePkg, rdPkg, beginPkg, M.load, hl, hw]
          · have h' := pkgs_update h.pkgs q (b := some none) (l := w.pkgs q) (by simp [PkgRel, hl])
            rw [Function.update_eq_self] at h'
            exact pkgs_update h' p (b := some (some ⟨f, some (x, false)⟩)) (l := some (.ref x)) ⟨rfl, hk.2⟩ p'
        · have hl : w.pkgs q = some (.cref x) := hk.1
          refine ⟨{ w with pkgs := Function.update w.pkgs p (some (.cref x)) }, ?_, h.vars, fun p' => ?_, h.objs⟩
          · simp [uexec, movePkg, rdPkg, beginPkg, M.load, hl, hw]
          · have h' := pkgs_update h.pkgs q (b := some none) (l := w.pkgs q) (by simp [PkgRel, hl])
            rw [Function.update_eq_self] at h'
            exact pkgs_update h' p (b := some (some ⟨f, some (x, true)⟩)) (l := some (.cref x)) ⟨rfl, hk.2⟩ p'
  | endPkg p =>
    simp only [Spec.ustep] at hs
    cases hp : y.pkgs p with
    | none => simp [hp] at hs
    | some a =>
      simp only [hp, Option.some.injEq, Prod.mk.injEq] at hs
      obtain ⟨rfl, rfl⟩ := hs
      obtain ⟨l, hl⟩ : ∃ l, w.pkgs p = some l := by
        cases e : w.pkgs p with
        | none => rw [(h.pkgs p).none_iff.1 e] at hp; cases hp
        | some l => exact ⟨l, rfl⟩
      exact ⟨{ w with pkgs := Function.update w.pkgs p none },
        by simp [uexec, endPkg, rdPkg, M.load, M.modify, hl], h.vars, pkgs_update h.pkgs p rfl, h.objs⟩
  | take i p =>
    simp only [Spec.ustep] at hs
    rcases hp : y.pkgs p with _ | _ | ⟨f, lent⟩
    · simp [hp] at hs
    · simp [hp] at hs
    · cases he : Spec.step tv te k (.ctorErr i (src.conv f)) y.objs with
      | none => simp [hp, he] at hs
      | some a =>
        obtain ⟨r', objs⟩ := a
        simp only [hp, he, Option.some.injEq, Prod.mk.injEq] at hs
        obtain ⟨rfl, rfl⟩ := hs
        have hk := h.pkgs p
        rw [hp] at hk
        rcases lent with _ | ⟨x, _ | _⟩
        · have hl : w.pkgs p = some (.own f) := hk
          obtain ⟨s, es, hg⟩ := onObjs_refines (F := F) hstep (op := .ctorErr i (src.conv f))
            (w := { w with pkgs := Function.update w.pkgs p (some (.own (src.mvTo f))) }) h.objs trivial he
          refine ⟨{ w with pkgs := Function.update w.pkgs p (some (.own (src.mvTo f))), objs := s }, ?_, h.vars, pkgs_update h.pkgs p (b := some none) (l := some (.own (src.mvTo f))) (by simp [PkgRel]), hg⟩
          simp [uexec, takePkg, takeError, rdPkg, wrPkg, M.load, M.modify, hl, es]
        · have hl : w.pkgs p = some (.ref x) := hk.1
          have hm : src.mvTo f = f := hsafe _ x hp rfl
          have hx : w.vars x = some f := (hv x).trans hk.2
          have hx' : Function.update w.vars x (some f) = w.vars := by rw [← hx, Function.update_eq_self]
          obtain ⟨s, es, hg⟩ := onObjs_refines (F := F) hstep (op := .ctorErr i (src.conv f)) (w := w) h.objs trivial he
          refine ⟨{ w with objs := s }, ?_, h.vars, fun q => ?_, hg⟩
          · simp [uexec, takePkg, takeError, rdPkg, rdVar, wrVar, M.load, M.modify, hl, hx, hm, hx', es]
          · have h' := pkgs_update h.pkgs p (b := some none) (l := w.pkgs p) (by simp [PkgRel, hl]) q
            rwa [Function.update_eq_self] at h'
        · have hl : w.pkgs p = some (.cref x) := hk.1
          have hx : w.vars x = some f := (hv x).trans hk.2
          obtain ⟨s, es, hg⟩ := onObjs_refines (F := F) hstep (op := .ctorErr i (src.conv f)) (w := w) h.objs trivial he
          refine ⟨{ w with objs := s }, ?_, h.vars, fun q => ?_, hg⟩
          · simp [uexec, takePkg, takeError, rdPkg, rdVar, M.load, hl, hx, es]
          · have h' := pkgs_update h.pkgs p (b := some none) (l := w.pkgs p) (by simp [PkgRel, hl]) q
            rwa [Function.update_eq_self] at h'
  | call op =>
    simp only [Spec.ustep] at hs
    cases he : Spec.step tv te k op y.objs with
    | none => simp [he] at hs
    | some a =>
      obtain ⟨r', objs⟩ := a
      simp only [he, Option.some.injEq, Prod.mk.injEq] at hs
      obtain ⟨rfl, rfl⟩ := hs
      obtain ⟨s, es, hg⟩ := onObjs_refines (F := F) hstep (w := w) h.objs hsafe he
      exact ⟨_, es, h.vars, h.pkgs, hg⟩

theorem urun_refines (hstep : Refines k tv te rep dead exec) : ∀ (ops : List (UOp V E F)) (y y' : Spec.USys V E F) (rs : List (UReply V E F))
    (w : World O F), URel rep dead y w → Spec.USafeRun tv te src k ops y → Spec.urun tv te src k ops y = some (rs, y') →
    ∃ w', urun src exec ops w = .ok rs w' ∧ URel rep dead y' w' := by
  intro ops
  induction ops with
  | nil =>
    intro y y' rs w h _ hs
    simp only [Spec.urun, Option.some.injEq, Prod.mk.injEq] at hs
    obtain ⟨rfl, rfl⟩ := hs
    exact ⟨w, rfl, h⟩
  | cons op ops ih =>
    intro y y' rs w h hsafe hs
    cases h1 : Spec.ustep tv te src k op y with
    | none => simp [Spec.urun, h1] at hs
    | some p =>
      obtain ⟨r, y1⟩ := p
      cases h2 : Spec.urun tv te src k ops y1 with
      | none => simp [Spec.urun, h1, h2] at hs
      | some q =>
        obtain ⟨rs1, y2⟩ := q
        simp only [Spec.urun, h1, h2, Option.bind_eq_bind, Option.bind_some, Option.some.injEq, Prod.mk.injEq] at hs
        obtain ⟨rfl, rfl⟩ := hs
        obtain ⟨w1, e1, hw1⟩ := ustep_refines hstep op y y1 r w h hsafe.1 h1
        obtain ⟨w2, e2, hw2⟩ := ih y1 y2 rs1 w1 hw1 (hsafe.2 r y1 h1) h2
        exact ⟨w2, by simp [urun, e1, e2], hw2⟩

theorem URel.init : URel rep dead (Spec.USys.init : Spec.USys V E F) World.init :=
  ⟨rfl, fun _ => rfl, [], by simp, by simp [World.init, Spec.USys.init, Store.init, mrep]⟩

theorem urun_append (as bs : List (UOp V E F)) (w : World O F) :
    urun src exec (as ++ bs) w = (do let rs ← urun src exec as; let ss ← urun src exec bs; pure (rs ++ ss) : M _ _) w := by
  induction as generalizing w with
  | nil => simp [urun]; cases urun src exec bs w <;> rfl
  | cons a as ih =>
    simp only [List.cons_append, urun, M.bind_apply]
    cases h : uexec src exec a w with
    | ub => rfl
    | throw e w' => rfl
    | ok r w' =>
      simp only [ih, M.bind_apply]
      cases urun src exec as w' with
      | ub => rfl
      | throw e w' => rfl
      | ok rs w' =>
        simp only [M.pure_apply]
        cases urun src exec bs w' <;> rfl

end

/-- the calls that do not do what they should, in any state -/
theorem lvalue_defects {O V E F : Type} {k : Kind} {tv : Ty V} {te : Ty E} {src : Src F E} {rep : V ⊕ E → O} {dead : O → Prop}
    {exec : Op V E → M (Store O) (Reply V E)} (hstep : Refines k tv te rep dead exec) (hk : k = .te ∨ k = .re ∨ k = .ve)
    (ops : List (UOp V E F)) (rs : List (UReply V E F)) (y : Spec.USys V E F) (hsafe : Spec.USafeRun tv te src k ops Spec.USys.init)
    (hrun : Spec.urun tv te src k ops Spec.USys.init = some (rs, y)) (x p i : Nat) (f : F)
    (hx : y.vars x = some f) (hp : y.pkgs p = none) (hi : y.objs i = none) :
    (∃ w, urun src exec (ops ++ [.wrapLvalue p x, .take i p, .getVar x]) World.init =
      .ok (rs ++ [.done, .of .done, .var (src.mvTo f)]) w) ∧
    (∀ f', ∃ w, urun src exec (ops ++ [.wrapLvalue p x, .setVar x f', .take i p, .call (.error i)]) World.init =
      .ok (rs ++ [.done, .done, .of .done, .of (.err (src.conv f'))]) w) ∧
    (∀ f', ∃ w, urun src exec (ops ++ [.wrapConst p x, .setVar x f', .take i p, .call (.error i)]) World.init =
      .ok (rs ++ [.done, .done, .of .done, .of (.err (src.conv f'))]) w) ∧
    urun src exec (ops ++ [.wrapLvalue p x, .endVar x, .take i p]) World.init = .ub ∧
    urun src exec (ops ++ [.wrapConst p x, .endVar x, .take i p]) World.init = .ub := by
  obtain ⟨w, e, h⟩ := urun_refines hstep ops _ _ _ _ URel.init hsafe hrun
  have hxw : w.vars x = some f := by rw [h.vars, hx]
  have hpw : w.pkgs p = none := (h.pkgs p).none_iff.2 hp
  have hc : ∀ f', Spec.step tv te k (.ctorErr i (src.conv f')) y.objs =
      some (.done, Function.update y.objs i (some (.inr (src.conv f')))) := by
    intro f'
    rcases hk with rfl | rfl | rfl <;> simp [Spec.step, Spec.offers, Spec.effect, hi]
  have he : ∀ f', Spec.step tv te k (.error i) (Function.update y.objs i (some (.inr (src.conv f')))) =
      some (.err (src.conv f'), Function.update y.objs i (some (.inr (src.conv f')))) := by
    intro f'
    rcases hk with rfl | rfl | rfl <;> simp [Spec.step, Spec.offers, Spec.effect]
  have hcall : ∀ f' (w' : World O F), w'.objs = w.objs → ∃ s, onObjs (F := F) exec (.ctorErr i (src.conv f')) w' =
        .ok (.of .done) { w' with objs := s } ∧ ∃ g, (∀ o ∈ g, dead o) ∧
        s = mrep rep (Function.update y.objs i (some (.inr (src.conv f')))) g := by
    intro f' w' hw'
    exact onObjs_refines hstep (op := .ctorErr i (src.conv f')) (by rw [hw']; exact h.objs) trivial (hc f')
  have herr : ∀ f' (w' : World O F), (∃ g, (∀ o ∈ g, dead o) ∧
      w'.objs = mrep rep (Function.update y.objs i (some (.inr (src.conv f')))) g) →
      ∃ s, onObjs (F := F) exec (.error i) w' = .ok (.of (.err (src.conv f'))) { w' with objs := s } := by
    intro f' w' hw'
    obtain ⟨s, es, -⟩ := onObjs_refines (F := F) hstep (op := .error i) hw' trivial (he f')
    exact ⟨s, es⟩
  refine ⟨?_, fun f' => ?_, fun f' => ?_, ?_, ?_⟩
  · obtain ⟨s, es, -⟩ := hcall f ⟨Function.update w.vars x (some (src.mvTo f)), Function.update w.pkgs p (some (.ref x)), w.objs⟩ rfl
    refine ⟨⟨Function.update w.vars x (some (src.mvTo f)), Function.update w.pkgs p (some (.ref x)), s⟩, ?_⟩
    rw [urun_append]
    simp [e, urun, uexec, wrapLvalue, takePkg, takeError, rdVar, wrVar, rdPkg, beginPkg, M.load, M.modify, hxw, hpw, es]
  · obtain ⟨s, es, hg⟩ := hcall f' ⟨Function.update w.vars x (some (src.mvTo f')), Function.update w.pkgs p (some (.ref x)), w.objs⟩ rfl
    obtain ⟨s', es'⟩ := herr f' ⟨Function.update w.vars x (some (src.mvTo f')), Function.update w.pkgs p (some (.ref x)), s⟩ hg
    refine ⟨⟨Function.update w.vars x (some (src.mvTo f')), Function.update w.pkgs p (some (.ref x)), s'⟩, ?_⟩
    rw [urun_append]
    simp [e, urun, uexec, wrapLvalue, takePkg, takeError, rdVar, wrVar, rdPkg, beginPkg, M.load, M.modify, hxw, hpw, es, es']
  · obtain ⟨s, es, hg⟩ := hcall f' ⟨Function.update w.vars x (some f'), Function.update w.pkgs p (some (.cref x)), w.objs⟩ rfl
    obtain ⟨s', es'⟩ := herr f' ⟨Function.update w.vars x (some f'), Function.update w.pkgs p (some (.cref x)), s⟩ hg
    refine ⟨⟨Function.update w.vars x (some f'), Function.update w.pkgs p (some (.cref x)), s'⟩, ?_⟩
    rw [urun_append]
    simp [e, urun, uexec, wrapConst, takePkg, takeError, rdVar, wrVar, rdPkg, beginPkg, M.load, M.modify, hxw, hpw, es, es']
  · rw [urun_append]
    simp [e, urun, uexec, wrapLvalue, takePkg, takeError, rdVar, rdPkg, beginPkg, M.load, M.modify, hxw, hpw]
  · rw [urun_append]
    simp [e, urun, uexec, wrapConst, takePkg, takeError, rdVar, rdPkg, beginPkg, M.load, M.modify, hxw, hpw]

/-- what the three classes with errors have in common -/
theorem TE.refines {V E : Type} (tv : Ty V) (te : Ty E) : Refines .te tv te TE.rep (fun o => o.u = .raw) (TE.exec tv te) :=
  TE.step_refines tv te

theorem RE.refines {E : Type} (te : Ty E) : Refines .re (Ty.plain 0) te RE.rep (fun o => o.u = none) (RE.exec te) :=
  RE.step_refines te

theorem VE.refines {E : Type} (te : Ty E) : Refines .ve (Ty.plain ()) te VE.rep (fun o => o.u = none) (VE.exec te) :=
  VE.step_refines te

/-- `expected<T, E>`: any program of variables, calls of `unexpected`, and `expected` objects. Missing: variables that are changed
before the `unexpected_t` made of them is used, and variables that are changed by moving from them (the defects below). With
`Spec.USafeRun` dropped this would be the full property. -/
theorem C63_unexpected_value_partial {V E F : Type} (tv : Ty V) (te : Ty E) (src : Src F E) (ops : List (UOp V E F)) (rs : List (UReply V E F))
    (y : Spec.USys V E F) (hsafe : Spec.USafeRun tv te src .te ops Spec.USys.init)
    (hrun : Spec.urun tv te src .te ops Spec.USys.init = some (rs, y)) :
    ∃ w, urun src (TE.exec tv te) ops World.init = .ok rs w ∧ w.vars = y.vars ∧
      (∀ i, (w.objs.obj i).map TE.Obj.alive = (y.objs i).map some) := by
  obtain ⟨w, e, h⟩ := urun_refines (TE.refines tv te) ops _ _ _ _ URel.init hsafe hrun
  obtain ⟨g, -, hg⟩ := h.objs
  exact ⟨w, e, h.vars, fun i => by rw [hg]; exact TE.alive_rep _ _ _⟩

/-- `expected<T&, E>` -/
theorem C63_unexpected_ref_partial {E F : Type} (te : Ty E) (src : Src F E) (ops : List (UOp Nat E F)) (rs : List (UReply Nat E F))
    (y : Spec.USys Nat E F) (hsafe : Spec.USafeRun (Ty.plain 0) te src .re ops Spec.USys.init)
    (hrun : Spec.urun (Ty.plain 0) te src .re ops Spec.USys.init = some (rs, y)) :
    ∃ w, urun src (RE.exec te) ops World.init = .ok rs w ∧ w.vars = y.vars ∧
      (∀ i, (w.objs.obj i).map RE.Obj.alive = (y.objs i).map some) := by
  obtain ⟨w, e, h⟩ := urun_refines (RE.refines te) ops _ _ _ _ URel.init hsafe hrun
  obtain ⟨g, -, hg⟩ := h.objs
  exact ⟨w, e, h.vars, fun i => by rw [hg]; exact RE.alive_rep _ _ _⟩

/-- `expected<void, E>` -/
theorem C63_unexpected_void_partial {E F : Type} (te : Ty E) (src : Src F E) (ops : List (UOp Unit E F)) (rs : List (UReply Unit E F))
    (y : Spec.USys Unit E F) (hsafe : Spec.USafeRun (Ty.plain ()) te src .ve ops Spec.USys.init)
    (hrun : Spec.urun (Ty.plain ()) te src .ve ops Spec.USys.init = some (rs, y)) :
    ∃ w, urun src (VE.exec te) ops World.init = .ok rs w ∧ w.vars = y.vars ∧
      (∀ i, (w.objs.obj i).map VE.Obj.alive = (y.objs i).map some) := by
  obtain ⟨w, e, h⟩ := urun_refines (VE.refines te) ops _ _ _ _ URel.init hsafe hrun
  obtain ⟨g, -, hg⟩ := h.objs
  exact ⟨w, e, h.vars, fun i => by rw [hg]; exact VE.alive_rep _ _ _⟩

/-- errors that are texts: lengths, a text that was moved from is empty, and the error is one longer -/
def textSrc : Src Nat Nat := ⟨fun _ => 0, fun _ => 0, fun n => n + 1⟩

/-- errors that are numbers -/
def plainSrc : Src Nat Nat := ⟨id, id, fun n => n + 1⟩

/-- a constant, `std::move`, and packages that are copied and moved -/
def unexpectedDemo (V : Type) : List (UOp V Nat Nat) :=
  [.newVar 0 5, .wrapConst 0 0, .copyPkg 1 0, .take 0 0, .getVar 0, .movePkg 2 1, .take 1 2, .endPkg 0, .endPkg 1, .endPkg 2,
    .wrapRvalue 3 0, .setVar 0 9, .take 2 3, .getVar 0, .call (.error 0), .call (.error 1), .call (.error 2)]

example : ∃ rs y, Spec.urun (Ty.plain 0) (Ty.plain 0) textSrc .te (unexpectedDemo Nat) Spec.USys.init = some (rs, y) ∧
    rs = [.done, .done, .done, .of .done, .var 5, .done, .of .done, .done, .done, .done, .done, .done, .of .done, .var 9,
      .of (.err 6), .of (.err 6), .of (.err 6)] ∧
    Spec.USafeRun (Ty.plain 0) (Ty.plain 0) textSrc .te (unexpectedDemo Nat) Spec.USys.init := by
  refine ⟨_, _, rfl, rfl, ?_⟩
  simp [unexpectedDemo, Spec.USafeRun, Spec.USafe, Spec.ustep, Spec.lend, Spec.USys.init, Spec.Lent, Spec.step, Spec.offers, Spec.effect,
    Spec.Safe, Function.update_apply]
  grind

/-- a variable with a number is left as it is -/
example : ∃ rs y, Spec.urun (Ty.plain 0) (Ty.plain 0) plainSrc .re [.newVar 0 5, .wrapLvalue 0 0, .take 0 0, .getVar 0, .call (.error 0)]
      Spec.USys.init = some (rs, y) ∧
    rs = [.done, .done, .of .done, .var 5, .of (.err 6)] ∧
    Spec.USafeRun (Ty.plain 0) (Ty.plain 0) plainSrc .re [.newVar 0 5, .wrapLvalue 0 0, .take 0 0, .getVar 0, .call (.error 0)]
      Spec.USys.init := by
  refine ⟨_, _, rfl, rfl, ?_⟩
  simp [Spec.USafeRun, Spec.USafe, Spec.ustep, Spec.lend, Spec.USys.init, Spec.step, Spec.offers, Spec.effect, Spec.Safe, plainSrc]

/-! ## Defects -/

/-- `expected<T, E>`: whenever there is a variable `x`, `unexpected(x)` leaves it moved from when the `expected` is made (first); the
error is the one that `x` has then, and not when `unexpected(x)` was called (second, and third for a const `x`); and if `x` does not
exist any more, the behaviour is undefined (the last two). -/
theorem C63_unexpected_value_lvalue_defect {V E F : Type} (tv : Ty V) (te : Ty E) (src : Src F E) (ops : List (UOp V E F))
    (rs : List (UReply V E F)) (y : Spec.USys V E F) (hsafe : Spec.USafeRun tv te src .te ops Spec.USys.init)
    (hrun : Spec.urun tv te src .te ops Spec.USys.init = some (rs, y)) (x p i : Nat) (f : F)
    (hx : y.vars x = some f) (hp : y.pkgs p = none) (hi : y.objs i = none) :
    (∃ w, urun src (TE.exec tv te) (ops ++ [.wrapLvalue p x, .take i p, .getVar x]) World.init =
      .ok (rs ++ [.done, .of .done, .var (src.mvTo f)]) w) ∧
    (∀ f', ∃ w, urun src (TE.exec tv te) (ops ++ [.wrapLvalue p x, .setVar x f', .take i p, .call (.error i)]) World.init =
      .ok (rs ++ [.done, .done, .of .done, .of (.err (src.conv f'))]) w) ∧
    (∀ f', ∃ w, urun src (TE.exec tv te) (ops ++ [.wrapConst p x, .setVar x f', .take i p, .call (.error i)]) World.init =
      .ok (rs ++ [.done, .done, .of .done, .of (.err (src.conv f'))]) w) ∧
    urun src (TE.exec tv te) (ops ++ [.wrapLvalue p x, .endVar x, .take i p]) World.init = .ub ∧
    urun src (TE.exec tv te) (ops ++ [.wrapConst p x, .endVar x, .take i p]) World.init = .ub :=
  lvalue_defects (TE.refines tv te) (by simp) ops rs y hsafe hrun x p i f hx hp hi

/-- `expected<T&, E>` -/
theorem C63_unexpected_ref_lvalue_defect {E F : Type} (te : Ty E) (src : Src F E) (ops : List (UOp Nat E F))
    (rs : List (UReply Nat E F)) (y : Spec.USys Nat E F) (hsafe : Spec.USafeRun (Ty.plain 0) te src .re ops Spec.USys.init)
    (hrun : Spec.urun (Ty.plain 0) te src .re ops Spec.USys.init = some (rs, y)) (x p i : Nat) (f : F)
    (hx : y.vars x = some f) (hp : y.pkgs p = none) (hi : y.objs i = none) :
    (∃ w, urun src (RE.exec te) (ops ++ [.wrapLvalue p x, .take i p, .getVar x]) World.init =
      .ok (rs ++ [.done, .of .done, .var (src.mvTo f)]) w) ∧
    (∀ f', ∃ w, urun src (RE.exec te) (ops ++ [.wrapLvalue p x, .setVar x f', .take i p, .call (.error i)]) World.init =
      .ok (rs ++ [.done, .done, .of .done, .of (.err (src.conv f'))]) w) ∧
    (∀ f', ∃ w, urun src (RE.exec te) (ops ++ [.wrapConst p x, .setVar x f', .take i p, .call (.error i)]) World.init =
      .ok (rs ++ [.done, .done, .of .done, .of (.err (src.conv f'))]) w) ∧
    urun src (RE.exec te) (ops ++ [.wrapLvalue p x, .endVar x, .take i p]) World.init = .ub ∧
    urun src (RE.exec te) (ops ++ [.wrapConst p x, .endVar x, .take i p]) World.init = .ub :=
  lvalue_defects (RE.refines te) (by simp) ops rs y hsafe hrun x p i f hx hp hi

/-- `expected<void, E>` -/
theorem C63_unexpected_void_lvalue_defect {E F : Type} (te : Ty E) (src : Src F E) (ops : List (UOp Unit E F))
    (rs : List (UReply Unit E F)) (y : Spec.USys Unit E F) (hsafe : Spec.USafeRun (Ty.plain ()) te src .ve ops Spec.USys.init)
    (hrun : Spec.urun (Ty.plain ()) te src .ve ops Spec.USys.init = some (rs, y)) (x p i : Nat) (f : F)
    (hx : y.vars x = some f) (hp : y.pkgs p = none) (hi : y.objs i = none) :
    (∃ w, urun src (VE.exec te) (ops ++ [.wrapLvalue p x, .take i p, .getVar x]) World.init =
      .ok (rs ++ [.done, .of .done, .var (src.mvTo f)]) w) ∧
    (∀ f', ∃ w, urun src (VE.exec te) (ops ++ [.wrapLvalue p x, .setVar x f', .take i p, .call (.error i)]) World.init =
      .ok (rs ++ [.done, .done, .of .done, .of (.err (src.conv f'))]) w) ∧
    (∀ f', ∃ w, urun src (VE.exec te) (ops ++ [.wrapConst p x, .setVar x f', .take i p, .call (.error i)]) World.init =
      .ok (rs ++ [.done, .done, .of .done, .of (.err (src.conv f'))]) w) ∧
    urun src (VE.exec te) (ops ++ [.wrapLvalue p x, .endVar x, .take i p]) World.init = .ub ∧
    urun src (VE.exec te) (ops ++ [.wrapConst p x, .endVar x, .take i p]) World.init = .ub :=
  lvalue_defects (VE.refines te) (by simp) ops rs y hsafe hrun x p i f hx hp hi

/-- after this there is a variable with a text, whose length the specification keeps -/
example : ∃ rs y y', Spec.USafeRun (Ty.plain 0) (Ty.plain 0) textSrc .te [.newVar 0 5, .call (.ctorVal 3 4)] Spec.USys.init ∧
    Spec.urun (Ty.plain 0) (Ty.plain 0) textSrc .te [.newVar 0 5, .call (.ctorVal 3 4)] Spec.USys.init = some (rs, y) ∧
    y.vars 0 = some 5 ∧ y.pkgs 0 = none ∧ y.objs 0 = none ∧ textSrc.mvTo 5 = 0 ∧
    Spec.urun (Ty.plain 0) (Ty.plain 0) textSrc .te [.wrapLvalue 0 0, .take 0 0, .getVar 0] y = some ([.done, .of .done, .var 5], y') := by
  refine ⟨_, _, _, ?_, rfl, rfl, rfl, rfl, rfl, rfl⟩
  simp [Spec.USafeRun, Spec.USafe, Spec.ustep, Spec.Safe]

end Itlib.Expected
