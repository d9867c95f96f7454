import Verif.FlatOver.Lemmas
import Verif.StaticVector.Props
import Verif.SmallVector.Props

/-! # `static_vector` and `small_vector` behave like sequences (no property statements here) -/
namespace Itlib.FlatOver
open Itlib Itlib.Flat
variable {ε : Type}

/-- a reply of a call, the caller catching exceptions -/
def caught {σ β ρ : Type} (exc : Exc → ρ) (q : β → ρ) : Res σ β → Option (ρ × σ)
  | .ok b s => some (q b, s)
  | .throw e s => some (exc e, s)
  | .ub => none

theorem caught_ok {σ β ρ : Type} {exc : Exc → ρ} {q : β → ρ} {res : Res σ β} {r : ρ} {s : σ} (he : ∀ e, exc e ≠ r)
    (h : caught exc q res = some (r, s)) : ∃ b, res = .ok b s ∧ q b = r := by
  cases res with
  | ok b t => simp only [caught, Option.some.injEq, Prod.mk.injEq] at h; obtain ⟨h1, rfl⟩ := h; exact ⟨b, rfl, h1⟩
  | throw e t => simp only [caught, Option.some.injEq, Prod.mk.injEq] at h; exact absurd h.1 (he e)
  | ub => simp [caught] at h

theorem caught_throw {σ β ρ : Type} {exc : Exc → ρ} {q : β → ρ} {res : Res σ β} {e : Exc} {s : σ} (hq : ∀ b, q b ≠ exc e)
    (hi : ∀ e', exc e' = exc e → e' = e) (h : caught exc q res = some (exc e, s)) : res = .throw e s := by
  cases res with
  | ok b t => simp only [caught, Option.some.injEq, Prod.mk.injEq] at h; exact absurd h.1 (hq b)
  | throw e' t =>
    simp only [caught, Option.some.injEq, Prod.mk.injEq] at h; obtain ⟨h1, rfl⟩ := h
    rw [hi _ h1]
  | ub => simp [caught] at h

theorem eqCs_all2 (eqv : ε → ε → Bool) (xs ys : List ε) : eqCs eqv xs ys = all2 eqv xs ys := by
  simp only [eqCs]
  by_cases h : xs.length = ys.length
  · simp only [h, ne_eq, not_true, if_false]
    induction xs generalizing ys with
    | nil =>
      cases ys with
      | nil => rfl
      | cons y ys => simp at h
    | cons x xs ih =>
      cases ys with
      | nil => simp at h
      | cons y ys =>
        simp only [List.zip_cons_cons, List.all_cons, all2]
        rw [ih _ (by simpa using h)]
  · simp [h, all2_length h]

/-! ### `static_vector` -/
namespace SV
open Itlib.StaticVector

/-- all vectors have capacity `cap` -/
def lift (cap : Nat) (y : Conts ε) : StaticVector.Spec.Sys ε := fun i => (y i).map fun xs => (cap, xs)

theorem lift_update (cap : Nat) (y : Conts ε) (i : Nat) (v : Option (List ε)) :
    lift cap (Function.update y i v) = (lift cap y).put i (v.map fun xs => (cap, xs)) := by
  funext j
  simp only [lift, StaticVector.Spec.Sys.put, Function.update_apply]
  split <;> rfl

theorem lift_some {cap : Nat} {y : Conts ε} {i : Nat} {xs : List ε} (h : y i = some xs) : lift cap y i = some (cap, xs) := by
  simp [lift, h]
theorem lift_none {cap : Nat} {y : Conts ε} {i : Nat} (h : y i = none) : lift cap y i = none := by
  simp [lift, h]

/-- the store holds exactly the vectors `y`; no destroyed vector left an object behind -/
def Holds (cap : Nat) (y : Conts ε) (s : Store ε) : Prop :=
  ∃ g, AllRaw g ∧ Good (lift cap y) ∧ s = mrep (lift cap y) g

theorem step (E : Elem ε) {cap : Nat} {op : StaticVector.MOp ε} {y y' : Conts ε} {s : Store ε} {r : StaticVector.Reply ε}
    (hr : Holds cap y s) (hs : StaticVector.Spec.MSafe op (lift cap y))
    (h : StaticVector.Spec.mstep E op (lift cap y) = some (r, lift cap y')) :
    ∃ s', StaticVector.mcall E op s = some (r, s') ∧ Holds cap y' s' := by
  obtain ⟨g, h1, h2, rfl⟩ := hr
  obtain ⟨g', h3, h4, h5⟩ := StaticVector.mcall_mrep E (g := g) h2 hs h
  exact ⟨_, h5, g' ++ g, h3.append h1, h4, rfl⟩

theorem unit_ok {f : M (Store ε) Unit} {s s' : Store ε} {r : StaticVector.Reply ε} (hr : r = .done)
    (h : (match (f >>= fun _ => pure .done : M (Store ε) (StaticVector.Reply ε)) s with
      | .ok r s' => some (r, s')
      | .throw e s' => some (.exc e, s')
      | .ub => none) = some (r, s')) : f s = .ok () s' := by
  subst hr
  revert h
  simp only [M.bind_apply]
  cases f s <;> simp

theorem unit_throw {f : M (Store ε) Unit} {s s' : Store ε} {e : Exc}
    (h : (match (f >>= fun _ => pure .done : M (Store ε) (StaticVector.Reply ε)) s with
      | .ok r s' => some (r, s')
      | .throw e s' => some (.exc e, s')
      | .ub => none) = some (.exc e, s')) : f s = .throw e s' := by
  revert h
  simp only [M.bind_apply]
  cases f s <;> simp

theorem call_eq {β : Type} {E : Elem ε} {op : StaticVector.Op ε} {f : M (SV ε) β} {q : β → StaticVector.Reply ε} (i : Nat)
    (s : Store ε) (hex : StaticVector.exec E op = f >>= fun b => pure (q b)) :
    StaticVector.mcall E (.call i op) s = caught .exc q (StaticVector.at' i f s) := by
  simp only [StaticVector.mcall, StaticVector.mexec, StaticVector.at', hex]
  cases s.vec i with
  | none => rfl
  | some v =>
    simp only [M.bind_apply]
    cases f v <;> rfl

theorem call_ok {β : Type} {E : Elem ε} {op : StaticVector.Op ε} {f : M (SV ε) β} {q : β → StaticVector.Reply ε} {i : Nat}
    {s s' : Store ε} {r : StaticVector.Reply ε} (hex : StaticVector.exec E op = f >>= fun b => pure (q b))
    (hr : ∀ e, .exc e ≠ r) (h : StaticVector.mcall E (.call i op) s = some (r, s')) :
    ∃ b, StaticVector.at' i f s = .ok b s' ∧ q b = r := by
  rw [call_eq i s hex] at h
  exact caught_ok hr h

theorem call_throw {β : Type} {E : Elem ε} {op : StaticVector.Op ε} {f : M (SV ε) β} {q : β → StaticVector.Reply ε} {i : Nat}
    {s s' : Store ε} {e : Exc} (hex : StaticVector.exec E op = f >>= fun b => pure (q b))
    (hq : ∀ b, q b ≠ .exc e) (h : StaticVector.mcall E (.call i op) s = some (.exc e, s')) :
    StaticVector.at' i f s = .throw e s' := by
  rw [call_eq i s hex] at h
  exact caught_throw hq (by intro e' h; injection h) h

/-- a call that is described by the specification of the member function -/
theorem member {E : Elem ε} {op : StaticVector.Op ε} {i cap : Nat} {y : Conts ε} {s : Store ε} {r : StaticVector.Reply ε} {xs xs' : List ε} (hr : Holds cap y s) (hy : y i = some xs)
    (hs : StaticVector.Spec.Safe cap op xs) (h : StaticVector.Spec.step cap E op xs = some (r, xs')) :
    ∃ s', StaticVector.mcall E (.call i op) s = some (r, s') ∧ Holds cap (Function.update y i (some xs')) s' := by
  refine step E hr ?_ ?_
  · intro c zs h
    rw [lift_some hy] at h; simp only [Option.some.injEq, Prod.mk.injEq] at h; obtain ⟨rfl, rfl⟩ := h
    exact hs
  · simp only [StaticVector.Spec.mstep, lift_some hy, Option.bind_eq_bind, Option.bind_some, h, lift_update]
    rfl

theorem holds_len {cap : Nat} {y : Conts ε} {s : Store ε} {i : Nat} {xs : List ε} (hr : Holds cap y s) (hy : y i = some xs) :
    xs.length ≤ cap := by
  obtain ⟨g, _, h2, _⟩ := hr
  exact (h2 i cap xs (lift_some hy)).1

theorem eq_rep (eqv : ε → ε → Bool) {ca cb : Nat} {xs ys : List ε} (h2 : xs.length ≤ ca) (h4 : ys.length ≤ cb) :
    StaticVector.eq eqv (rep ca xs) (rep cb ys) = some (all2 eqv xs ys) := by
  simp only [StaticVector.eq, rep_size]
  by_cases hl : xs.length = ys.length
  · simp only [hl, ne_eq, not_true, if_false]
    rw [← hl, eqLoop_rep eqv h2 h4 hl _ _ (by omega)]
    simp
  · simp [hl, all2_length hl]

theorem refines (E : Elem ε) {cap : Nat} (hcap : cap < 2 ^ 63) :
    Refines (staticVector E cap) (some cap) true (Holds cap) where
  len hr hy := by simpa [Flat.Spec.fits] using holds_len hr hy
  ctor {y s i} hr hy := by
    obtain ⟨s', h1, h2⟩ := step E (op := .ctor i cap) (y' := Function.update y i (some [])) (r := .done) hr hcap
      (by simp [StaticVector.Spec.mstep, lift_none hy, lift_update])
    exact ⟨s', unit_ok rfl h1, h2⟩
  ctorRange {y s i xs} hr hy hf := by
    have hf : xs.length ≤ cap := by simpa [Flat.Spec.fits] using hf
    obtain ⟨s', h1, h2⟩ := step E (op := .ctorRange i cap xs) (y' := Function.update y i (some xs)) (r := .done) hr hcap
      (by simp [StaticVector.Spec.mstep, lift_none hy, lift_update, hf])
    exact ⟨s', unit_ok rfl h1, h2⟩
  ctorRange_full {y s i xs} hr hy hf := by
    have hf : ¬ xs.length ≤ cap := by simpa [Flat.Spec.fits] using hf
    obtain ⟨s', h1, h2⟩ := step E (op := .ctorRange i cap xs) (y' := y) (r := .exc .outOfRange) hr hcap
      (by simp [StaticVector.Spec.mstep, lift_none hy, hf])
    exact ⟨s', unit_throw h1, h2⟩
  copyCtor {y s i j xs} hr hi hj := by
    obtain ⟨s', h1, h2⟩ := step E (op := .copyCtor i cap j) (y' := Function.update y i (some xs)) (r := .done) hr hcap
      (by simp [StaticVector.Spec.mstep, lift_none hi, lift_some hj, lift_update, holds_len hr hj])
    exact ⟨s', unit_ok rfl h1, h2⟩
  moveCtor {y s i j xs} hr hi hj := by
    obtain ⟨s', h1, h2⟩ := step E (op := .moveCtor i j)
      (y' := Function.update (Function.update y i (some xs)) j (some [])) (r := .done) hr trivial
      (by simp [StaticVector.Spec.mstep, lift_none hi, lift_some hj, lift_update])
    exact ⟨s', unit_ok rfl h1, h2⟩
  copyAssign {y s i j zs xs} hr hi hj := by
    obtain ⟨s', h1, h2⟩ := step E (op := .copyAssign i j) (y' := Function.update y i (some xs)) (r := .done) hr trivial
      (by simp [StaticVector.Spec.mstep, lift_some hi, lift_some hj, lift_update])
    exact ⟨s', unit_ok rfl h1, h2⟩
  moveAssign {y s i j zs xs} hr hi hj hne := by
    obtain ⟨s', h1, h2⟩ := step E (op := .moveAssign i j)
      (y' := Function.update (Function.update y i (some xs)) j (some [])) (r := .done) hr hne
      (by simp [StaticVector.Spec.mstep, lift_some hi, lift_some hj, lift_update, hne])
    exact ⟨s', unit_ok rfl h1, h2⟩
  swap _ {y s i j zs xs} hr hi hj := by
    obtain ⟨s', h1, h2⟩ := step E (op := .swap i j)
      (y' := Function.update (Function.update y i (some xs)) j (some zs)) (r := .done) hr trivial
      (by simp [StaticVector.Spec.mstep, lift_some hi, lift_some hj, lift_update])
    exact ⟨s', unit_ok rfl h1, h2⟩
  dtor {y s i xs} hr hy := by
    obtain ⟨s', h1, h2⟩ := step E (op := .dtor i) (y' := Function.update y i none) (r := .done) hr trivial
      (by simp [StaticVector.Spec.mstep, lift_some hy, lift_update])
    exact ⟨s', unit_ok rfl h1, h2⟩
  size {y s i xs} hr hy := by
    obtain ⟨g, _, h2, rfl⟩ := hr
    exact at'_read (m := StaticVector.size) (b := xs.length) (v := rep cap xs) (mrep_vec (lift_some hy)) rfl
  get {y s i xs p} hr hy hp := by
    have hl := holds_len hr hy
    obtain ⟨g, _, h2, rfl⟩ := hr
    exact at'_read (mrep_vec (lift_some hy)) (at_rep hp hl)
  set {y s i xs p} e hr hy hp := by
    obtain ⟨s', h1, h2⟩ := member (E := E) (op := .set p (.val e))
      (r := .done) (xs' := xs.set p e) hr hy trivial (by simp [StaticVector.Spec.step, StaticVector.Spec.argVal, hp])
    obtain ⟨b, h3, _⟩ := call_ok (f := setAt p (.val e)) (q := fun _ => .done) rfl (by simp) h1
    exact ⟨s', h3, h2⟩
  moveElem {y s i xs p q} hr hy hp hq hne := by
    obtain ⟨s', h1, h2⟩ := member (E := E) (op := .moveElem p q) (r := .done) (xs' := (xs.set p xs[q]).set q (E.mv xs[q])) hr hy trivial
      (by simp [StaticVector.Spec.step, hp, hq, hne])
    obtain ⟨b, h3, _⟩ := call_ok (f := StaticVector.moveElem E p q) (q := fun _ => .done) rfl (by simp) h1
    exact ⟨s', _, h3, h2⟩
  emplace {y s i xs p} e hr hy hp hc := by
    have hl := holds_len hr hy
    have hlt : xs.length < cap := by
      have : xs.length ≠ cap := fun h => hc (by rw [h])
      omega
    obtain ⟨s', h1, h2⟩ := member (E := E) (op := .insert p (.val e)) (r := .at p) (xs' := xs.take p ++ e :: xs.drop p) hr hy (by intro _; trivial)
      (by simp [StaticVector.Spec.step, StaticVector.Spec.argVal, hp, hlt])
    obtain ⟨b, h3, h4⟩ := call_ok (f := StaticVector.insert E p (.val e)) (q := .at) rfl (by simp) h1
    injection h4 with h4; subst h4
    exact ⟨s', h3, h2⟩
  emplace_full {y s i xs p} e hr hy hp hc := by
    have hlt : ¬ xs.length < cap := by
      injection hc with hc; omega
    obtain ⟨s', h1, h2⟩ := member (E := E) (op := .insert p (.val e)) (r := .exc .outOfRange) (xs' := xs) hr hy (by intro h; exact absurd h hlt)
      (by simp [StaticVector.Spec.step, StaticVector.Spec.argVal, hp, hlt])
    have h3 := call_throw (f := StaticVector.insert E p (.val e)) (q := .at) rfl (by simp) h1
    rw [upd_same hy] at h2
    exact ⟨s', h3, h2⟩
  erase {y s i xs p} hr hy hp := by
    obtain ⟨s', h1, h2⟩ := member (E := E) (op := .erase p) (r := .at p) (xs' := xs.eraseIdx p) hr hy trivial
      (by simp [StaticVector.Spec.step, hp, List.eraseIdx_eq_take_drop_succ])
    obtain ⟨b, h3, h4⟩ := call_ok (f := StaticVector.erase E p) (q := .at) rfl (by simp) h1
    injection h4 with h4; subst h4
    exact ⟨s', h3, h2⟩
  eraseToEnd {y s i xs p} hr hy hp := by
    obtain ⟨s', h1, h2⟩ := member (E := E) (op := .eraseRange p xs.length) (r := .at p) (xs' := xs.take p) hr hy
      (by simp only [StaticVector.Spec.Safe]; omega)
      (by simp [StaticVector.Spec.step, hp])
    obtain ⟨b, h3, h4⟩ := call_ok (f := StaticVector.eraseRange E p xs.length) (q := .at) rfl (by simp) h1
    injection h4 with h4; subst h4
    exact ⟨s', h3, h2⟩
  clear {y s i xs} hr hy := by
    obtain ⟨s', h1, h2⟩ := member (E := E) (op := .clear)
      (r := .done) (xs' := []) hr hy trivial (by simp [StaticVector.Spec.step])
    obtain ⟨b, h3, _⟩ := call_ok (f := StaticVector.clear) (q := fun _ => .done) rfl (by simp) h1
    exact ⟨s', h3, h2⟩
  eq {y s i j xs zs} eqv hr hi hj := by
    have hl := holds_len hr hi
    have hl' := holds_len hr hj
    obtain ⟨g, _, h2, rfl⟩ := hr
    simp only [staticVector, M.load, mrep_vec (lift_some hi), mrep_vec (lift_some hj), Option.bind_eq_bind, Option.bind_some,
      eq_rep eqv hl hl', eqCs_all2]

end SV

/-! ### `small_vector` -/
namespace SmV
open Itlib.SmallVector

/-- the memory holds exactly the vectors `y`, wherever their elements are -/
def Holds (P : Params) (y : Conts ε) (m : SmallVector.Mem ε) : Prop :=
  ∃ Y blk, MRep P (fun _ => none) Y blk m ∧ ∀ i, y i = (Y i).map SmallVector.Spec.V.xs

theorem step {P : Params} (hN : 0 < P.N) (hR : P.R ≤ P.N + 1) (E : Elem ε) {op : SmallVector.MOp ε}
    {Y Y' : SmallVector.Spec.Sys ε} {blk : Nat → Nat} {y' : Conts ε} {m : SmallVector.Mem ε} {r : SmallVector.Reply ε}
    (hr : MRep P (fun _ => none) Y blk m) (hs : SmallVector.Spec.MSafe P.N P.R op Y)
    (h : SmallVector.Spec.mstep P.N P.R E op Y = some (r, Y')) (hy : ∀ i, y' i = (Y' i).map SmallVector.Spec.V.xs) :
    ∃ m', SmallVector.mcall P E op m = some (r, m') ∧ Holds P y' m' := by
  obtain ⟨m', blk', h1, h2⟩ := SmallVector.mcall_mrep E hN hR hr hs h
  exact ⟨m', h1, Y', blk', h2, hy⟩

theorem xs_put {Y : SmallVector.Spec.Sys ε} {y : Conts ε} (h : ∀ i, y i = (Y i).map SmallVector.Spec.V.xs) (i : Nat)
    (v : Option (SmallVector.Spec.V ε)) (j : Nat) :
    Function.update y i (v.map SmallVector.Spec.V.xs) j = ((Y.put i v) j).map SmallVector.Spec.V.xs := by
  simp only [SmallVector.Spec.Sys.put, Function.update_apply]
  split
  · rfl
  · exact h j

theorem of_none {Y : SmallVector.Spec.Sys ε} {y : Conts ε} (h : ∀ i, y i = (Y i).map SmallVector.Spec.V.xs) {i : Nat}
    (hy : y i = none) : Y i = none := by
  rw [h] at hy; simpa using hy

theorem of_some {Y : SmallVector.Spec.Sys ε} {y : Conts ε} (h : ∀ i, y i = (Y i).map SmallVector.Spec.V.xs) {i : Nat}
    {xs : List ε} (hy : y i = some xs) : ∃ v, Y i = some v ∧ v.xs = xs := by
  rw [h] at hy; simpa using hy

theorem unit_ok {P : Params} {E : Elem ε} {op : SmallVector.MOp ε} {f : M (SmallVector.Mem ε) Unit}
    {m m' : SmallVector.Mem ε} (hf : SmallVector.mexec P E op = f >>= fun _ => pure .done)
    (h : SmallVector.mcall P E op m = some (.done, m')) : f m = .ok () m' := by
  revert h
  simp only [SmallVector.mcall, hf, M.bind_apply]
  cases f m <;> simp

theorem call_eq {β : Type} {P : Params} {E : Elem ε} {op : SmallVector.Op ε} {f : M (St ε) β} {q : β → SmallVector.Reply ε}
    (i : Nat) (m : SmallVector.Mem ε) (hex : SmallVector.exec P E op = f >>= fun b => pure (q b)) :
    SmallVector.mcall P E (.call i op) m = caught .exc q (SmallVector.at' i f m) := by
  simp only [SmallVector.mcall, SmallVector.mexec, SmallVector.at', hex]
  cases m.vec i with
  | none => rfl
  | some v =>
    simp only [M.bind_apply]
    cases f (m.view v) <;> rfl

/-- a call that is described by the specification of the member function -/
theorem member {P : Params} (hN : 0 < P.N) (hR : P.R ≤ P.N + 1) {E : Elem ε} {β : Type} {op : SmallVector.Op ε} {i : Nat}
    {y : Conts ε} {m : SmallVector.Mem ε} {r : SmallVector.Reply ε} {xs xs' : List ε} {f : M (St ε) β}
    {q : β → SmallVector.Reply ε} (hex : SmallVector.exec P E op = f >>= fun b => pure (q b)) (he : ∀ e, .exc e ≠ r)
    (hr : Holds P y m) (hy : y i = some xs) (hs : ∀ h, SmallVector.Spec.Safe P.N P.R op h xs)
    (h : ∀ h, ∃ h', SmallVector.Spec.step P.N P.R E op h xs = some (r, h', xs')) :
    ∃ m' b, SmallVector.at' i f m = .ok b m' ∧ q b = r ∧ Holds P (Function.update y i (some xs')) m' := by
  obtain ⟨Y, blk, hM, hY⟩ := hr
  obtain ⟨v, hv, rfl⟩ := of_some hY hy
  obtain ⟨h', h⟩ := h v.home
  obtain ⟨m', h1, h2⟩ := step hN hR E (op := .call i op) (y' := Function.update y i (some xs')) (r := r) hM
    (by intro w hw; rw [hv] at hw; injection hw with hw; subst hw; exact hs _)
    (by simp only [SmallVector.Spec.mstep, hv, Option.bind_eq_bind, Option.bind_some, h])
    (xs_put hY i (some ⟨v.al, h', xs'⟩))
  rw [call_eq i m hex] at h1
  obtain ⟨b, h3, h4⟩ := caught_ok he h1
  exact ⟨m', b, h3, h4, h2⟩

theorem refines {P : Params} (hN : 0 < P.N) (hR : P.R ≤ P.N + 1) (E : Elem ε) (al : Nat) :
    Refines (smallVector P E al) none false (Holds P) where
  len _ _ := rfl
  ctor {y m i} hr hy := by
    obtain ⟨Y, blk, hM, hY⟩ := hr
    obtain ⟨m', h1, h2⟩ := step hN hR E (op := .ctor i al) (r := .done) hM trivial
      (by simp only [SmallVector.Spec.mstep, of_none hY hy]; rfl) (xs_put hY i (some ⟨al, _, []⟩))
    exact ⟨m', unit_ok (f := SmallVector.construct P i al) rfl h1, h2⟩
  ctorRange {y m i xs} hr hy _ := by
    obtain ⟨Y, blk, hM, hY⟩ := hr
    obtain ⟨m', h1, h2⟩ := step hN hR E (op := .ctorRange i al xs) (r := .done) hM trivial
      (by simp only [SmallVector.Spec.mstep, of_none hY hy]; rfl) (xs_put hY i (some ⟨al, _, xs⟩))
    exact ⟨m', unit_ok (f := SmallVector.ctorRange P i al xs) rfl h1, h2⟩
  ctorRange_full _ _ hf := by simp [Flat.Spec.fits] at hf
  copyCtor {y m i j xs} hr hi hj := by
    obtain ⟨Y, blk, hM, hY⟩ := hr
    obtain ⟨v, hv, rfl⟩ := of_some hY hj
    obtain ⟨m', h1, h2⟩ := step hN hR E (op := .copyCtor i al j) (r := .done) hM trivial
      (by simp only [SmallVector.Spec.mstep, of_none hY hi, hv, Option.bind_eq_bind, Option.bind_some]; rfl)
      (xs_put hY i (some ⟨al, _, v.xs⟩))
    exact ⟨m', unit_ok (f := SmallVector.copyCtor P i al j) rfl h1, h2⟩
  moveCtor {y m i j xs} hr hi hj := by
    obtain ⟨Y, blk, hM, hY⟩ := hr
    obtain ⟨v, hv, rfl⟩ := of_some hY hj
    obtain ⟨m', h1, h2⟩ := step hN hR E (op := .moveCtor i j) (r := .done) hM trivial
      (by simp only [SmallVector.Spec.mstep, of_none hY hi, hv, Option.bind_eq_bind, Option.bind_some]; rfl)
      (xs_put (xs_put hY i (some v)) j (some ⟨v.al, .stat, []⟩))
    exact ⟨m', unit_ok (f := SmallVector.moveCtor P E i j) rfl h1, h2⟩
  copyAssign {y m i j zs xs} hr hi hj := by
    obtain ⟨Y, blk, hM, hY⟩ := hr
    obtain ⟨w, hw, rfl⟩ := of_some hY hi
    obtain ⟨v, hv, rfl⟩ := of_some hY hj
    by_cases hij : i = j
    · subst hij
      rw [hw] at hv; injection hv with hv; subst hv
      obtain ⟨m', h1, h2⟩ := step hN hR E (op := .copyAssign i i) (r := .done) hM trivial
        (by simp only [SmallVector.Spec.mstep, hw, Option.bind_eq_bind, Option.bind_some, if_true]) hY
      refine ⟨m', unit_ok (f := SmallVector.copyAssign P i i) rfl h1, ?_⟩
      rw [upd_same hi]; exact h2
    · obtain ⟨m', h1, h2⟩ := step hN hR E (op := .copyAssign i j) (r := .done) hM trivial
        (by simp only [SmallVector.Spec.mstep, hv, hw, Option.bind_eq_bind, Option.bind_some, hij, if_false])
        (xs_put hY i (some ⟨w.al, SmallVector.Spec.choose P.N P.R v.xs.length w.home, v.xs⟩))
      exact ⟨m', unit_ok (f := SmallVector.copyAssign P i j) rfl h1, h2⟩
  moveAssign {y m i j zs xs} hr hi hj hij := by
    obtain ⟨Y, blk, hM, hY⟩ := hr
    obtain ⟨w, hw, rfl⟩ := of_some hY hi
    obtain ⟨v, hv, rfl⟩ := of_some hY hj
    obtain ⟨m', h1, h2⟩ := step hN hR E (op := .moveAssign i j) (r := .done) hM trivial
      (by simp only [SmallVector.Spec.mstep, hv, hw, Option.bind_eq_bind, Option.bind_some, hij, if_false])
      (xs_put (xs_put hY i (some v)) j (some ⟨v.al, .stat, []⟩))
    exact ⟨m', unit_ok (f := SmallVector.moveAssign P E i j) rfl h1, h2⟩
  swap h := by simp at h
  dtor {y m i xs} hr hy := by
    obtain ⟨Y, blk, hM, hY⟩ := hr
    obtain ⟨v, hv, rfl⟩ := of_some hY hy
    obtain ⟨m', h1, h2⟩ := step hN hR E (op := .dtor i) (r := .done) hM trivial
      (by simp only [SmallVector.Spec.mstep, hv, Option.bind_eq_bind, Option.bind_some]) (xs_put hY i none)
    exact ⟨m', unit_ok (f := SmallVector.destruct i) rfl h1, h2⟩
  size {y m i xs} hr hy := by
    obtain ⟨Y, blk, hM, hY⟩ := hr
    obtain ⟨v, hv, rfl⟩ := of_some hY hy
    exact at'_read hM hv (size_st ..)
  get {y m i xs p} hr hy hp := by
    obtain ⟨Y, blk, hM, hY⟩ := hr
    obtain ⟨v, hv, rfl⟩ := of_some hY hy
    exact at'_read hM hv (at_st hp (hM.len i v hv))
  set {y m i xs p} e hr hy hp := by
    obtain ⟨m', b, h1, _, h2⟩ := member hN hR (E := E) (op := .set p (.val e)) (r := .done) (xs' := xs.set p e)
      (f := SmallVector.setAt p (.val e)) (q := fun _ => .done) rfl (by simp) hr hy (fun _ => trivial)
      (fun h => ⟨h, by simp [SmallVector.Spec.step, SmallVector.Spec.argVal, hp]⟩)
    exact ⟨m', h1, h2⟩
  moveElem {y m i xs p q} hr hy hp hq hne := by
    obtain ⟨m', b, h1, _, h2⟩ := member hN hR (E := E) (op := .moveElem p q) (r := .done)
      (xs' := (xs.set p xs[q]).set q (E.mv xs[q]))
      (f := SmallVector.moveElem E p q) (q := fun _ => .done) rfl (by simp) hr hy (fun _ => trivial)
      (fun h => ⟨h, by simp [SmallVector.Spec.step, hp, hq, hne]⟩)
    exact ⟨m', _, h1, h2⟩
  emplace {y m i xs p} e hr hy hp _ := by
    obtain ⟨m', b, h1, h3, h2⟩ := member hN hR (E := E) (op := .insert p (.val e)) (r := .at p)
      (xs' := xs.take p ++ e :: xs.drop p) (f := SmallVector.insert P E p (.val e)) (q := .at) rfl (by simp) hr hy
      (fun _ _ => trivial)
      (fun h => ⟨_, by simp [SmallVector.Spec.step, SmallVector.Spec.argVal, hp]; rfl⟩)
    injection h3 with h3; subst h3
    exact ⟨m', h1, h2⟩
  emplace_full _ _ _ _ h := by simp at h
  erase {y m i xs p} hr hy hp := by
    have hp' : (p : Int) + 1 ≤ (xs.length : Int) := by omega
    obtain ⟨m', b, h1, h3, h2⟩ := member hN hR (E := E) (op := .erase p) (r := .at p)
      (xs' := xs.eraseIdx p) (f := SmallVector.erase P E p) (q := .at) rfl (by simp) hr hy
      (fun _ => trivial)
      (fun h => ⟨_, by
        simp only [SmallVector.Spec.step]
        rw [if_pos ⟨by omega, by omega, hp'⟩]
        rw [show ((p : Int) + 1).toNat = p + 1 by omega, Int.toNat_natCast, List.eraseIdx_eq_take_drop_succ]⟩)
    injection h3 with h3; subst h3
    exact ⟨m', h1, h2⟩
  eraseToEnd {y m i xs p} hr hy hp := by
    obtain ⟨m', b, h1, h3, h2⟩ := member hN hR (E := E) (op := .eraseRange p xs.length) (r := .at p)
      (xs' := xs.take p) (f := SmallVector.eraseRange P E p xs.length) (q := .at) rfl (by simp) hr hy
      (fun h => by intro _ he; left; exact he ▸ rfl)
      (fun h => ⟨_, by
        simp only [SmallVector.Spec.step]
        rw [if_pos ⟨by omega, by omega, by omega⟩]
        rw [Int.toNat_natCast, Int.toNat_natCast, List.drop_length, List.append_nil]⟩)
    injection h3 with h3; subst h3
    exact ⟨m', h1, h2⟩
  clear {y m i xs} hr hy := by
    obtain ⟨m', b, h1, _, h2⟩ := member hN hR (E := E) (op := .clear) (r := .done) (xs' := [])
      (f := SmallVector.clear P) (q := fun _ => .done) rfl (by simp) hr hy (fun _ => trivial)
      (fun h => ⟨_, by simp only [SmallVector.Spec.step]; rfl⟩)
    exact ⟨m', h1, h2⟩
  eq {y m i j xs zs} eqv hr hi hj := by
    obtain ⟨Y, blk, hM, hY⟩ := hr
    obtain ⟨v, hv, rfl⟩ := of_some hY hi
    obtain ⟨w, hw, rfl⟩ := of_some hY hj
    have h1 : m.vec i = some (vecRep P i (blk i) v) := by rw [hM.vec i, hv]; rfl
    have h2 : m.vec j = some (vecRep P j (blk j) w) := by rw [hM.vec j, hw]; rfl
    simp only [smallVector, M.load, h1, h2, Option.bind_eq_bind, Option.bind_some, view_st hM hv, view_st hM hw,
      SmallVector.eq, size_st]
    by_cases hl : v.xs.length = w.xs.length
    · simp only [hl, ne_eq, not_true, if_false]
      rw [← hl, eqLoop_st eqv (hM.len i v hv) (hM.len j w hw) hl _ _ (by omega)]
      simp [eqCs_all2]
    · simp [hl, eqCs_all2, all2_length hl]

end SmV
end Itlib.FlatOver
