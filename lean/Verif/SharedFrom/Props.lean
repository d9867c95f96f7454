import Verif.SharedFrom.Lemmas

/-! # make_aliased, shared_from: results and lifetimes for every history (C44) -/
namespace Itlib.SharedFrom

open Spec (Sys Owned Allowed)

/-- the places of shared pointers, between calls -/
def loc (f : Nat → Ptr) : Loc → Ptr
  | .var x => f x
  | _ => Ptr.null
/-- the places of weak pointers, between calls -/
def wl (f : Nat → Ptr) : WL → Ptr
  | .var x => f x
  | _ => Ptr.null

/-- the memory shows the variables of the specification -/
def Rel (y : Sys) (s : St) : Prop := Good y.addr (loc y.sp) (wl y.wp) y.ended y.next s

theorem rel_start : Rel Spec.start start := by
  refine ⟨?_, ?_, rfl, rfl, ?_⟩
  · funext l; cases l <;> rfl
  · intro w; cases w <;> rfl
  refine ⟨?_, ?_, ?_, ?_, ?_, ?_, ?_, ?_, ?_, ?_⟩
  · intro q hq; exact ⟨[], by simp, fun p => by simp [start, Ptr.null]; exact fun e => hq e.symm, rfl⟩
  · intro q hq
    refine ⟨[], by simp, ?_, rfl⟩
    intro p
    cases p with
    | inl l => simp [held, start, Ptr.null]; exact fun e => hq e.symm
    | inr r => simp only [held, start, List.not_mem_nil, false_iff]; split_ifs <;> omega
  · intro o
    simp only [start]
    rw [if_neg (by omega)]
  · intro q hq hlt; simp [start] at hlt; omega
  · intro l; simp [start, Ptr.null]
  · intro l; simp [start, Ptr.null]
  · intro q _ h; simp [start] at h
  · simp [start]
  · intro q; simp [start]
  · simp [start]

variable {addr : Nat → Nat} {σ : Loc → Ptr} {ω : WL → Ptr} {dn : Nat → Bool} {n : Nat} {s : St}

theorem assign_ok {f : Nat → Ptr} {v : Ptr} (h : Good addr (Function.update (loc f) .res v) ω dn n s) (d : Nat) :
    ∃ s', assign d s = .ok () s' ∧ Good addr (loc (Function.update f d v)) ω dn n s' := by
  obtain ⟨s1, e1, g1⟩ := swap_ok h .res (.var d)
  obtain ⟨s2, e2, g2⟩ := release_ok g1 .res
  refine ⟨s2, by simp [assign, e1, e2], ?_⟩
  convert g2 using 1
  funext l
  cases l with
  | var x =>
    by_cases e : x = d
    · subst e; simp [loc]
    · simp [loc, e]
  | t1 => simp [loc]
  | t2 => simp [loc]
  | res => simp [loc]

theorem assignW_ok {f : Nat → Ptr} {v : Ptr} (h : Good addr σ (Function.update (wl f) .res v) dn n s) (d : Nat) :
    ∃ s', assignW d s = .ok () s' ∧ Good addr σ (wl (Function.update f d v)) dn n s' := by
  obtain ⟨s1, e1, g1⟩ := swapW_ok h .res (.var d)
  obtain ⟨s2, e2, g2⟩ := releaseW_ok g1 .res
  refine ⟨s2, by simp [assignW, e1, e2], ?_⟩
  convert g2 using 1
  funext l
  cases l with
  | var x =>
    by_cases e : x = d
    · subst e; simp [wl]
    · simp [wl, e]
  | res => simp [wl]

theorem callOn_ok (h : Good addr σ ω dn n s) {o : Nat} (ho : o = 0 ∨ (o < n ∧ dn o = false)) : callOn o s = .ok () s := by
  rw [← h.next, ← h.done] at ho
  simp only [callOn, if_pos ho]

theorem owned_exists (h : Good addr σ ω dn n s) {o : Nat} (ho : o ≠ 0) (hx : ∃ x, (σ x).ctl = o) : o < n ∧ dn o = false := by
  have i := h.inv
  have hu := (i.use_pos ho).mpr (by rw [h.sp]; exact hx)
  rw [← h.next, ← h.done]
  exact ⟨i.use_lt ho hu, i.alive o ho hu⟩

theorem sharedFromThis_ok (h : Good addr σ ω dn n s) (h1 : σ .t1 = Ptr.null) (h2 : σ .t2 = Ptr.null) {o : Nat} (ho : o ≠ 0)
    (hx : ∃ x, (σ x).ctl = o) :
    ∃ s', sharedFromThis o s = .ok () s' ∧ Good addr (Function.update σ .t2 ⟨addr o, o⟩) ω dn n s' := by
  obtain ⟨s1, e1, g1⟩ := fromWeak_ok h h1 ho hx
  obtain ⟨s2, e2, g2⟩ := swap_ok g1 .t2 .t1
  obtain ⟨s3, e3, g3⟩ := release_ok g2 .t1
  refine ⟨s3, by simp [sharedFromThis, callOn_ok h (Or.inr (owned_exists h ho hx)), e1, e2, e3], ?_⟩
  convert g3 using 1
  funext l
  cases l <;> simp [h1, h2]

theorem sharedFromThis_throw (h : Good addr σ ω dn n s) {o : Nat} (ho : o = 0 ∨ (o < n ∧ dn o = false))
    (hx : ¬ (o ≠ 0 ∧ ∃ x, (σ x).ctl = o)) : sharedFromThis o s = .throw .badWeakPtr s := by
  simp [sharedFromThis, callOn_ok h ho, fromWeak_throw h hx]

theorem sharedFrom_ok (h : Good addr σ ω dn n s) (h1 : σ .t1 = Ptr.null) (h2 : σ .t2 = Ptr.null) (h3 : σ .res = Ptr.null) {o : Nat}
    (p : Nat) (ho : o ≠ 0) (hx : ∃ x, (σ x).ctl = o) :
    ∃ s', sharedFrom o p s = .ok () s' ∧ Good addr (Function.update σ .res ⟨p, o⟩) ω dn n s' := by
  obtain ⟨s1, e1, g1⟩ := sharedFromThis_ok h h1 h2 ho hx
  have hc : (s1.sp .t2).ctl = o := by rw [g1.sp]; simp
  obtain ⟨s2, e2, g2⟩ := acquire_ok g1 (d := .res) (p := p) (q := o) (by simpa using h3) (Or.inr ⟨.t2, by simp⟩)
  obtain ⟨s3, e3, g3⟩ := release_ok g2 .t2
  refine ⟨s3, by simp [sharedFrom, callOn_ok h (Or.inr (owned_exists h ho hx)), e1, hc, e2, e3], ?_⟩
  convert g3 using 1
  funext l
  cases l <;> simp [h2]

theorem sharedFrom_throw (h : Good addr σ ω dn n s) {o : Nat} (p : Nat) (ho : o = 0 ∨ (o < n ∧ dn o = false))
    (hx : ¬ (o ≠ 0 ∧ ∃ x, (σ x).ctl = o)) : sharedFrom o p s = .throw .badWeakPtr s := by
  simp [sharedFrom, callOn_ok h ho, sharedFromThis_throw h ho hx]

theorem weakOf_ok (h : Good addr σ ω dn n s) (h3 : ω .res = Ptr.null) (l : Loc) :
    ∃ s', weakOf l s = .ok () s' ∧ Good addr σ (Function.update ω .res (σ l)) dn n s' := by
  have := acquireW_ok h (d := .res) (p := (σ l).ptr) (q := (σ l).ctl) h3 (by
    by_cases h0 : (σ l).ctl = 0
    · exact Or.inl h0
    · right
      have hu := (h.inv.use_pos h0).mpr (by rw [h.sp]; exact ⟨l, rfl⟩)
      exact ⟨by rw [← h.next]; exact h.inv.use_lt h0 hu, h.inv.not_freed_of_use h0 hu⟩)
  simpa [weakOf, h.sp] using this

theorem owned_iff {y : Sys} {o : Nat} : Owned y o ↔ o ≠ 0 ∧ ∃ x, (loc y.sp x).ctl = o := by
  constructor
  · rintro ⟨h0, x, hx⟩; exact ⟨h0, .var x, hx⟩
  · rintro ⟨h0, x, hx⟩
    refine ⟨h0, ?_⟩
    cases x with
    | var x => exact ⟨x, hx⟩
    | t1 => exact absurd hx.symm h0
    | t2 => exact absurd hx.symm h0
    | res => exact absurd hx.symm h0

theorem ncard_eq {f : Nat → Ptr} {m : Nat → Nat} (h : Exact (fun p => (loc f p).ctl) m) {q : Nat} (hq : q ≠ 0) :
    m q = Set.ncard {z | (f z).ctl = q} := by
  obtain ⟨l, h1, h2, h3⟩ := h q hq
  have h4 : {z | (f z).ctl = q} = Loc.var ⁻¹' (l.toFinset : Set Loc) := by
    ext z
    simp [h2, loc]
  rw [h3, h4, Set.ncard_preimage_of_injective_subset_range (fun a b e => Loc.var.inj e), Set.ncard_coe_finset,
    List.toFinset_card_of_nodup h1]
  intro p hp
  simp only [List.coe_toFinset, Set.mem_ofPred_eq, h2] at hp
  cases p with
  | var x => exact ⟨x, rfl⟩
  | t1 => exact absurd hp.symm hq
  | t2 => exact absurd hp.symm hq
  | res => exact absurd hp.symm hq

open Classical in
theorem step_refines {cpp17 : Bool} {y : Sys} {s : St} (h : Rel y s) {op : Op} (ha : Allowed y op) :
    ∃ s', call cpp17 op s = .ok (Spec.step cpp17 y op).1 s' ∧ Rel (Spec.step cpp17 y op).2 s' := by
  have hres : loc y.sp .res = Ptr.null := rfl
  have hresw : wl y.wp .res = Ptr.null := rfl
  cases op with
  | make x a =>
    obtain ⟨s1, e1, g1⟩ := makeShared_ok h hres a
    obtain ⟨s2, e2, g2⟩ := assign_ok g1 x
    exact ⟨s2, by simp [call, exec, e1, e2, Spec.step], g2⟩
  | copy d x =>
    obtain ⟨s1, e1, g1⟩ := acquire_ok h (p := (y.sp x).ptr) (q := (y.sp x).ctl) hres (Or.inr ⟨.var x, rfl⟩)
    obtain ⟨s2, e2, g2⟩ := assign_ok g1 d
    have hv : s.sp (.var x) = y.sp x := by rw [h.sp]; rfl
    exact ⟨s2, by simp [call, exec, hv, e1, e2, Spec.step], g2⟩
  | move d x =>
    obtain ⟨s1, e1, g1⟩ := swap_ok h .res (.var x)
    have g1' : Good y.addr (Function.update (loc (Function.update y.sp x Ptr.null)) .res (y.sp x)) (wl y.wp) y.ended y.next s1 := by
      convert g1 using 1
      funext l
      cases l with
      | var z =>
        by_cases e : z = x
        · subst e; simp [loc]
        · simp [loc, e]
      | t1 => simp [loc]
      | t2 => simp [loc]
      | res => simp [loc]
    obtain ⟨s2, e2, g2⟩ := assign_ok g1' d
    exact ⟨s2, by simp [call, exec, e1, e2, Spec.step], g2⟩
  | reset x =>
    obtain ⟨s2, e2, g2⟩ := assign_ok (f := y.sp) (v := Ptr.null) (by rw [← hres, Function.update_eq_self]; exact h) x
    exact ⟨s2, by simp [call, exec, e2, Spec.step], g2⟩
  | useCount x =>
    have e1 := useCount_ok h (.var x)
    refine ⟨s, ?_, h⟩
    have hl : loc y.sp (.var x) = y.sp x := rfl
    rw [hl] at e1
    simp only [call, exec, M.bind_apply, e1, M.pure_apply, Spec.step]
    have hx := h.inv.useX
    rw [h.sp] at hx
    by_cases h0 : (y.sp x).ctl = 0
    · simp [h0]
    · simp [h0, ncard_eq hx h0]
  | aliased d x p =>
    have e1 := useCount_ok h (.var x)
    by_cases h0 : (y.sp x).ctl = 0
    · obtain ⟨s1, e2, g1⟩ := acquire_ok h (p := 0) (q := 0) hres (Or.inl rfl)
      obtain ⟨s2, e3, g2⟩ := assign_ok g1 d
      have hl : (loc y.sp (.var x)).ctl = 0 := h0
      rw [hl] at e1
      refine ⟨s2, by simp [call, exec, makeAliased, e1, e2, e3, Spec.step], ?_⟩
      simp only [Spec.step, h0, if_true]
      exact g2
    · have hv : (s.sp (.var x)).ctl = (y.sp x).ctl := by rw [h.sp]; rfl
      have hu := (h.inv.use_pos h0).mpr ⟨.var x, hv⟩
      obtain ⟨s1, e2, g1⟩ := acquire_ok h (p := p) (q := (y.sp x).ctl) hres (Or.inr ⟨.var x, rfl⟩)
      obtain ⟨s2, e3, g2⟩ := assign_ok g1 d
      have hl : loc y.sp (.var x) = y.sp x := rfl
      rw [hl, if_neg h0] at e1
      refine ⟨s2, by simp [call, exec, makeAliased, e1, hu, hv, e2, e3, Spec.step], ?_⟩
      simp only [Spec.step, h0, if_false]
      exact g2
  | sharedFrom d o p =>
    by_cases ho : Owned y o
    · obtain ⟨h0, hx⟩ := owned_iff.mp ho
      obtain ⟨s1, e1, g1⟩ := sharedFrom_ok h rfl rfl rfl p h0 hx
      obtain ⟨s2, e2, g2⟩ := assign_ok g1 d
      simp only [Spec.step, if_pos ho]
      exact ⟨s2, by simp [call, exec, e1, e2], g2⟩
    · have hn := owned_iff.not.mp ho
      have e1 := sharedFrom_throw h p (ha.imp_right fun c => c.2) hn
      simp only [Spec.step, if_neg ho]
      exact ⟨s, by simp [call, exec, e1], h⟩
  | sharedFromThis d o =>
    by_cases ho : Owned y o
    · obtain ⟨h0, hx⟩ := owned_iff.mp ho
      obtain ⟨s1, e1, g1⟩ := sharedFromThis_ok h rfl rfl h0 hx
      obtain ⟨s2, e2, g2⟩ := swap_ok g1 .res .t2
      obtain ⟨s3, e3, g3⟩ := release_ok g2 .t2
      have g3' : Good y.addr (Function.update (loc y.sp) .res ⟨y.addr o, o⟩) (wl y.wp) y.ended y.next s3 := by
        convert g3 using 1
        funext l
        cases l <;> simp [loc]
      obtain ⟨s4, e4, g4⟩ := assign_ok g3' d
      simp only [Spec.step, if_pos ho]
      exact ⟨s4, by simp [call, exec, e1, e2, e3, e4], g4⟩
    · have hn := owned_iff.not.mp ho
      have e1 := sharedFromThis_throw h (ha.imp_right fun c => c.2) hn
      simp only [Spec.step, if_neg ho]
      exact ⟨s, by simp [call, exec, e1], h⟩
  | weakFrom w o p =>
    have hc := callOn_ok h (ha.imp_right fun c => c.2)
    by_cases ho : Owned y o
    · obtain ⟨h0, hx⟩ := owned_iff.mp ho
      obtain ⟨s1, e1, g1⟩ := sharedFrom_ok h rfl rfl rfl p h0 hx
      obtain ⟨s2, e2, g2⟩ := weakOf_ok g1 rfl .res
      obtain ⟨s3, e3, g3⟩ := release_ok g2 .res
      simp only [Function.update_self, Function.update_idem] at g3
      rw [← hres, Function.update_eq_self] at g3
      obtain ⟨s4, e4, g4⟩ := assignW_ok g3 w
      simp only [Spec.step, if_pos ho]
      exact ⟨s4, by simp [call, exec, weakFrom, hc, e1, e2, e3, e4], g4⟩
    · have hn := owned_iff.not.mp ho
      have e1 := sharedFrom_throw h p (ha.imp_right fun c => c.2) hn
      simp only [Spec.step, if_neg ho]
      exact ⟨s, by simp [call, exec, weakFrom, hc, e1], h⟩
  | weakFromThis w o =>
    have hc := callOn_ok h (ha.imp_right fun c => c.2)
    cases cpp17 with
    | true =>
      have hth := h.inv.this o
      by_cases h0 : o = 0
      · rw [if_neg (by simp [h0])] at hth
        obtain ⟨s1, e1, g1⟩ := acquireW_ok h (d := .res) (p := 0) (q := 0) hresw (Or.inl rfl)
        obtain ⟨s2, e2, g2⟩ := assignW_ok g1 w
        simp only [Spec.step, if_pos h0]
        exact ⟨s2, by simp [call, exec, weakFromThis, hc, hth, Ptr.null, e1, e2], g2⟩
      · have hE := ha.resolve_left h0
        rw [if_pos ⟨h0, by rw [h.next]; exact hE.2.1, by rw [h.done]; exact hE.2.2⟩] at hth
        obtain ⟨s1, e1, g1⟩ := acquireW_ok h (d := .res) (p := y.addr o) (q := o) hresw
          (Or.inr ⟨hE.2.1, h.inv.not_freed_of_exists h0 (by rw [h.next]; exact hE.2.1) (by rw [h.done]; exact hE.2.2)⟩)
        obtain ⟨s2, e2, g2⟩ := assignW_ok g1 w
        simp only [Spec.step, if_neg h0]
        exact ⟨s2, by simp [call, exec, weakFromThis, hc, hth, e1, e2], g2⟩
    | false =>
      by_cases ho : Owned y o
      · obtain ⟨h0, hx⟩ := owned_iff.mp ho
        obtain ⟨s1, e1, g1⟩ := sharedFromThis_ok h rfl rfl h0 hx
        obtain ⟨s2, e2, g2⟩ := weakOf_ok g1 rfl .t2
        obtain ⟨s3, e3, g3⟩ := release_ok g2 .t2
        simp only [Function.update_self, Function.update_idem] at g3
        have ht2 : loc y.sp .t2 = Ptr.null := rfl
        rw [← ht2, Function.update_eq_self] at g3
        obtain ⟨s4, e4, g4⟩ := assignW_ok g3 w
        simp only [Spec.step, if_pos ho]
        exact ⟨s4, by simp [call, exec, weakFromThis, hc, e1, e2, e3, e4], g4⟩
      · have hn := owned_iff.not.mp ho
        have e1 := sharedFromThis_throw h (ha.imp_right fun c => c.2) hn
        simp only [Spec.step, if_neg ho]
        exact ⟨s, by simp [call, exec, weakFromThis, hc, e1], h⟩
  | weakOf w x =>
    obtain ⟨s1, e1, g1⟩ := weakOf_ok h hresw (.var x)
    obtain ⟨s2, e2, g2⟩ := assignW_ok g1 w
    exact ⟨s2, by simp [call, exec, e1, e2, Spec.step], g2⟩
  | lock d w =>
    obtain ⟨s1, e1, g1⟩ := lockW_ok h hres (.var w)
    obtain ⟨s2, e2, g2⟩ := assign_ok g1 d
    refine ⟨s2, by simp [call, exec, e1, e2, Spec.step], ?_⟩
    have hi : (if Owned y (y.wp w).ctl then y.wp w else Ptr.null) =
        (if (wl y.wp (.var w)).ctl ≠ 0 ∧ ∃ x, (loc y.sp x).ctl = (wl y.wp (.var w)).ctl then wl y.wp (.var w) else Ptr.null) :=
      if_congr owned_iff rfl rfl
    simp only [Spec.step, hi]
    exact g2
  | resetW w =>
    obtain ⟨s2, e2, g2⟩ := assignW_ok (f := y.wp) (v := Ptr.null) (by rw [← hresw, Function.update_eq_self]; exact h) w
    exact ⟨s2, by simp [call, exec, e2, Spec.step], g2⟩
  | finish o =>
    obtain ⟨⟨h0, hlt, hd⟩, hn⟩ := ha
    obtain ⟨s1, e1, g1⟩ := finish_ok h h0 hlt hd (fun c => hn (owned_iff.mpr ⟨h0, c⟩))
    exact ⟨s1, by simp [call, exec, e1, Spec.step], g1⟩

theorem run_refines {cpp17 : Bool} (ops : List Op) {y : Sys} {s : St} (h : Rel y s) (hv : Spec.Valid cpp17 ops y) :
    ∃ s', run cpp17 ops s = .ok (Spec.run cpp17 ops y).1 s' ∧ Rel (Spec.run cpp17 ops y).2 s' := by
  induction ops generalizing y s with
  | nil => exact ⟨s, rfl, h⟩
  | cons op ops ih =>
    obtain ⟨s1, e1, h1⟩ := step_refines h hv.1
    obtain ⟨s2, e2, h2⟩ := ih h1 hv.2
    exact ⟨s2, by simp [run, e1, e2, Spec.run], h2⟩

/-- **C44.** Every history of calls has the results of the specification, in which there are no counts: `make_aliased`
gives the given address with the owner of its argument, and an empty pointer exactly if its argument has no owner;
`shared_from` and `weak_from` give the given address with the owner of the object and throw exactly if nothing owns it
(for example in its destructor); `use_count` is the number of owners. There is no undefined behaviour, so no control block
is touched after it was freed. At the end the variables have the values of the specification. -/
theorem C44_history (cpp17 : Bool) (ops : List Op) (hv : Spec.Valid cpp17 ops Spec.start) :
    ∃ s', run cpp17 ops start = .ok (Spec.run cpp17 ops Spec.start).1 s' ∧
      (∀ x, s'.sp (.var x) = (Spec.run cpp17 ops Spec.start).2.sp x) ∧
      (∀ w, s'.wp (.user (.var w)) = (Spec.run cpp17 ops Spec.start).2.wp w) := by
  obtain ⟨s', e, h⟩ := run_refines ops rel_start hv
  exact ⟨s', e, fun x => by rw [h.sp]; rfl, fun w => h.wp (.var w)⟩

/-- **C44.** After every history: the destructor of an object has begun if and only if no variable owns it any more, and
no destructor begins twice. So an aliased pointer keeps its owner alive exactly as long as it exists. -/
theorem C44_lifetime (cpp17 : Bool) (ops : List Op) (hv : Spec.Valid cpp17 ops Spec.start) :
    ∃ rs s', run cpp17 ops start = .ok rs s' ∧ s'.log.Nodup ∧
      ∀ o, o ∈ s'.log ↔ (o ≠ 0 ∧ o < s'.next ∧ ∀ x, (s'.sp (.var x)).ctl ≠ o) := by
  obtain ⟨s', e, h⟩ := run_refines ops rel_start hv
  refine ⟨_, s', e, h.inv.nodup, fun o => ?_⟩
  rw [h.inv.log]
  refine and_congr_right fun h0 => and_congr_right fun _ => ?_
  rw [← not_iff_not, ← ne_eq, h.inv.use_pos h0, h.sp]
  have := owned_iff (y := (Spec.run cpp17 ops Spec.start).2) (o := o)
  simp only [Owned, h0, ne_eq, not_false_eq_true, true_and] at this
  rw [← this]
  simp [loc]

/-- **C44.** After every history a control block has been freed if and only if the destructor of its object has ended and
no shared or weak pointer refers to it: there are no leaks, and no dangling control blocks. -/
theorem C44_control_blocks (cpp17 : Bool) (ops : List Op) (hv : Spec.Valid cpp17 ops Spec.start) :
    ∃ rs s', run cpp17 ops start = .ok rs s' ∧
      ∀ q, q ≠ 0 → q < s'.next →
        (s'.freed q = true ↔
          s'.done q = true ∧ (∀ x, (s'.sp (.var x)).ctl ≠ q) ∧ ∀ w, (s'.wp (.user (.var w))).ctl ≠ q) := by
  obtain ⟨s', e, h⟩ := run_refines ops rel_start hv
  refine ⟨_, s', e, fun q hq hlt => ?_⟩
  rw [h.inv.freed q hq hlt, h.inv.weakX.zero_iff hq]
  constructor
  · intro hn
    have h1 : s'.done q = true := by
      by_contra hd
      rw [Bool.not_eq_true] at hd
      exact hn (.inr q) (by simp [held, hlt, hd])
    refine ⟨h1, ?_, fun w => hn (.inl (.user (.var w)))⟩
    intro x hx
    have := h.inv.alive q hq ((h.inv.use_pos hq).mpr ⟨_, hx⟩)
    rw [h1] at this; cases this
  · rintro ⟨h1, h2, h3⟩ p hp
    cases p with
    | inl l =>
      cases l with
      | user w =>
        cases w with
        | var w => exact h3 w hp
        | res =>
          simp only [held, h.wp, wl, Ptr.null] at hp
          exact hq hp.symm
      | this o =>
        simp only [held, h.inv.this] at hp
        split_ifs at hp with hc
        · subst hp; rw [h1] at hc; exact absurd hc.2.2 (by simp)
        · exact hq hp.symm
    | inr r =>
      simp only [held] at hp
      split_ifs at hp with hc
      · subst hp; rw [h1] at hc; exact absurd hc.2 (by simp)
      · exact hq hp.symm

/-- the state of the example below, before the last owner goes away -/
def before : Sys := ⟨fun x => if x = 1 then ⟨108, 1⟩ else Ptr.null, fun w => if w = 3 then ⟨104, 1⟩ else Ptr.null,
  fun o => if o = 1 then 100 else 0, fun _ => false, 2⟩
/-- the state of the example below, after the last owner went away -/
def after : Sys := { before with sp := fun _ => Ptr.null }

/-- A member of an object is kept by an aliased pointer after the only other owner went away. When the aliased pointer
goes away, the destructor begins, and in it `shared_from` throws. -/
example : Spec.Valid true [.make 0 100, .aliased 1 0 108, .reset 0, .weakFrom 3 1 104, .reset 1, .sharedFrom 5 1 100, .lock 2 3,
    .finish 1, .resetW 3] Spec.start ∧
    (Spec.run true [.make 0 100, .aliased 1 0 108, .reset 0, .weakFrom 3 1 104, .reset 1, .sharedFrom 5 1 100, .lock 2 3,
    .finish 1, .resetW 3] Spec.start).1 = [.done, .done, .done, .done, .done, .badWeakPtr, .done, .done, .done] := by
  have h3 : (Spec.run true [.make 0 100, .aliased 1 0 108, .reset 0] Spec.start).2 = { before with wp := fun _ => Ptr.null } := by
    simp only [Spec.run, Spec.step, Spec.start, before, Sys.setS, Sys.mk.injEq, and_true]
    refine ⟨?_, trivial, ?_, ?_⟩
    · funext x
      by_cases h0 : x = 0
      · subst h0; simp
      · by_cases h1 : x = 1 <;> simp [h0, h1]
    · funext x; simp [Function.update_apply]
    · funext x; simp
  have o3 : Owned { before with wp := fun _ => Ptr.null } 1 := ⟨by decide, 1, rfl⟩
  have h4 : Spec.step true { before with wp := fun _ => Ptr.null } (.weakFrom 3 1 104) = (.done, before) := by
    simp only [Spec.step, if_pos o3]
    congr 1
    simp only [before, Sys.setW, Sys.mk.injEq, true_and, and_true]
    funext w; simp [Function.update_apply]
  have h5 : Spec.step true before (.reset 1) = (.done, after) := by
    simp only [Spec.step, after, before, Sys.setS]
    congr 1
    simp only [Sys.mk.injEq, and_true]
    funext w; by_cases h1 : w = 1 <;> simp [h1]
  have o5 : ¬ Owned after 1 := by rintro ⟨-, x, hx⟩; simp [after, Ptr.null] at hx
  have h6 : Spec.step true after (.sharedFrom 5 1 100) = (.badWeakPtr, after) := by simp only [Spec.step, if_neg o5]
  have h7 : Spec.step true after (.lock 2 3) = (.done, after) := by
    have o5' : ¬ Owned after (after.wp 3).ctl := o5
    simp only [Spec.step, if_neg o5']
    congr 1
    simp only [Sys.setS, after, Sys.mk.injEq, and_true]
    funext w; simp [Function.update_apply]
  have e1 : Spec.Exists before 1 := ⟨by decide, by decide, rfl⟩
  have e2 : Spec.Exists after 1 := ⟨by decide, by decide, rfl⟩
  simp only [Spec.run] at h3
  simp only [Spec.Valid, Spec.run, h3, h4, h5, h6, h7, Allowed, true_and, and_true]
  exact ⟨⟨Or.inr e1, Or.inr e2, e2, o5⟩, rfl⟩

end Itlib.SharedFrom
