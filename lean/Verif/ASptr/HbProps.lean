import Verif.ASptr.HbLemmas

/-! # C59: the memory orders suffice -/
namespace Itlib.ASptr
open Itlib.Conc

variable {v₀ : SP} {es : List Event} {c : Config Act Act.Res St Op Out}

/-- No two accesses to a word of the stored pointer race, in the sense of the C++ memory model. -/
theorem C59_no_race (h : Run v₀ es c) (i j : Nat) : ¬ Race coded es i j := by
  rintro ⟨⟨w, b, b', hi, hj, -⟩, hne, h1, h2⟩
  rcases Nat.lt_or_gt_of_ne hne with h3 | h3
  · exact h1 ((run_inv h).ordered _ _ _ _ _ _ hi hj h3)
  · exact h2 ((run_inv h).ordered _ _ _ _ _ _ hj hi h3)

/-- Publication: what thread `t` did up to a call's access to the stored pointer happens before everything that thread `t'`
does from a later access on. -/
theorem C59_publication (h : Run v₀ es c) {m i j n t t' : Nat} {w w' : Word} {b b' : Bool} (hm : By es m t) (hmi : m ≤ i)
    (hi : es[i]? = some ⟨t, .word w b⟩) (hij : i < j) (hj : es[j]? = some ⟨t', .word w' b'⟩) (hjn : j ≤ n) (hn : By es n t') :
    Hb coded es m n := by
  have h1 := (run_inv h).ordered i j w w' b b' ⟨_, hi⟩ ⟨_, hj⟩ hij
  have h2 : Hb coded es m j := by
    rcases Nat.lt_or_eq_of_le hmi with h3 | rfl
    · exact Hb.trans (.po h3 t hm ⟨_, hi⟩) h1
    · exact h1
  rcases Nat.lt_or_eq_of_le hjn with h3 | rfl
  · exact h2.trans (.po h3 t' ⟨_, hj⟩ hn)
  · exact h2

/-- An object's construction happens before everything that any thread ever does to it, however the pointer got there. -/
theorem C59_constructed_first (h : Run v₀ es c) {q i j : Nat} (hq : q ≠ 0) (hi : Is es i (.con q)) (hij : i < j) (hj : Touches es j q)
    (hl : SameLife es q i j) : Hb coded es i j := (run_inv h).pub q i j hq hi hij hj hl

/-- Everything that any thread ever did to an object happens before its destruction. -/
theorem C59_destroyed_last (h : Run v₀ es c) {q i j : Nat} (hq : q ≠ 0) (hj : Is es j (.dec q true)) (hij : i < j) (hi : Touches es i q)
    (hl : SameLife es q i j) : Hb coded es i j := (run_inv h).last q j hq hj i hij hi hl

/-! ### The orders are needed -/

theorem Run.goOn {thr : Nat → Option (Op × P Out)} {s s' : St} {t : Nat} {f : Op} {a : Act} {k : a.Res → P Out} {r : a.Res}
    (h : Run v₀ es ⟨s, Function.update thr t (some (f, .act a k))⟩) (hd : Does t a s r s') :
    Run v₀ (es ++ [⟨t, label t a s r⟩]) ⟨s', Function.update thr t (some (f, k r))⟩ := by
  have := Run.act h t f a k r s' (by simp) hd
  simpa using this

theorem Run.done {thr : Nat → Option (Op × P Out)} {s : St} {t : Nat} {f : Op} {y : Out}
    (h : Run v₀ es ⟨s, Function.update thr t (some (f, .ret y))⟩) : Run v₀ (es ++ [⟨t, .ret f y⟩]) ⟨s, Function.update thr t none⟩ := by
  have := Run.ret h t f y (by simp)
  simpa using this

theorem Run.as {es' : List Event} (h : Run v₀ es c) (he : es = es') : Run v₀ es' c := he ▸ h

/-- thread 0 makes an object and stores it, thread 1 loads and uses it -/
def demo : List Event :=
  [⟨0, .inv (.make 0)⟩, ⟨0, .con 7⟩, ⟨0, .none⟩, ⟨0, .none⟩, ⟨0, .none⟩, ⟨0, .ret (.make 0) (.ptr ⟨5, 7⟩)⟩,
   ⟨0, .inv (.store true 0)⟩, ⟨0, .none⟩, ⟨0, .none⟩, ⟨0, .lock⟩, ⟨0, .word .ptr false⟩, ⟨0, .word .ptr true⟩, ⟨0, .word .ctl false⟩,
   ⟨0, .word .ctl true⟩, ⟨0, .unlock⟩, ⟨0, .none⟩, ⟨0, .none⟩, ⟨0, .ret (.store true 0) .unit⟩,
   ⟨1, .inv (.load 0)⟩, ⟨1, .lock⟩, ⟨1, .word .ptr false⟩, ⟨1, .word .ctl false⟩, ⟨1, .inc 7⟩, ⟨1, .unlock⟩, ⟨1, .none⟩, ⟨1, .none⟩,
   ⟨1, .none⟩, ⟨1, .none⟩, ⟨1, .ret (.load 0) (.ptr ⟨5, 7⟩)⟩, ⟨1, .inv (.use 0)⟩, ⟨1, .none⟩, ⟨1, .use 7⟩]

theorem demo_run : ∃ c, Run null demo c := by
  have a0 := (Run.start (v₀ := null)).inv 0 (.make 0) rfl
  have a1 := a0.goOn (.make _ .res ⟨5, 7⟩ (by decide) (by simp [initial, null]))
  have a2 := (((a1.goOn (.move _ .tmp .res)).goOn (.swap _ .tmp (.user 0))).goOn (.release _ .tmp)).done
  have b0 := a2.inv 0 (.store true 0) (by simp)
  have b1 := ((b0.goOn (.move _ .prm (.user 0))).goOn (.move _ .prm2 .prm)).goOn (.lock _ (by simp [St.set, St.inc, St.dec, initial, null]))
  have b2 := (((b1.goOn (.rdPtr _)).goOn (.wrPtr _ .prm2)).goOn (.rdCtl _)).goOn (.wrCtl _ .prm2 _ _)
  have b3 := (((b2.goOn (.unlock _)).goOn (.release _ .prm2)).goOn (.release _ .prm)).done
  have c0 := b3.inv 1 (.load 0) (by simp [initial])
  have c1 := c0.goOn (.lock _ (by simp [St.set, St.inc, St.dec, initial, null]))
  have c2 := (((c1.goOn (.rdPtr _)).goOn (.rdCtl _)).goOn (.acquire _ .res _ _)).goOn (.unlock _)
  have c3 := ((((c2.goOn (.rd _ .res)).goOn (.move _ .tmp .res)).goOn (.swap _ .tmp (.user 0))).goOn (.release _ .tmp)).done
  obtain ⟨s, thr, hs, ht, hrun⟩ : ∃ s thr, s.cells 1 (.user 0) = ⟨5, 7⟩ ∧ thr 1 = none ∧ Run null (demo.take 29) ⟨s, thr⟩ := by
    refine ⟨_, _, ?_, ?_, c3.as ?_⟩
    rotate_left 2
    · simp [demo, label, St.set, St.inc, St.dec, initial, null]
    · simp [St.set, St.inc, St.dec, initial, null]
    · simp
  have d0 := (hrun.inv 1 (.use 0) ht).goOn (.rd _ (.user 0))
  rw [hs] at d0
  have d1 := Run.goOn (a := .deref (.user 0)) (k := fun _ => .ret .unit) d0 (.deref _ (.user 0))
  refine ⟨_, d1.as ?_⟩
  simp [demo, label, hs]

/-- With weaker orders, only the order of each thread is left in `demo`. -/
theorem demo_hb {o : Orders} (ho : o.acq = false ∨ o.rel = false) {i j : Nat} (h : Hb o demo i j) : ∃ t, By demo i t ∧ By demo j t := by
  induction h with
  | po h t hi hj => exact ⟨t, hi, hj⟩
  | sync h =>
    cases h with
    | lock h ha hr hi hj hn => rcases ho with ho | ho <;> simp [ho] at ha hr
    | count h q b b' hi hj hn =>
      obtain ⟨t, hi⟩ := hi
      have := List.mem_of_getElem? hi
      simp [demo] at this
    | slot h b hi hj =>
      obtain ⟨t, hi⟩ := hi
      have := List.mem_of_getElem? hi
      simp [demo] at this
  | trans _ _ h1 h2 =>
    obtain ⟨t, h3, l, h4⟩ := h1
    obtain ⟨t', ⟨l', h5⟩, h6⟩ := h2
    rw [h4] at h5
    cases h5
    exact ⟨t, h3, h6⟩

/-- Both orders are needed: if `test_and_set` did not acquire, or `clear` did not release, the same code would race on the stored
pointer, and a thread could use a loaded object before its construction. -/
theorem C59_orders_needed (o : Orders) (ho : o ≠ coded) :
    ∃ es c, Run null es c ∧ (∃ i j, Race o es i j) ∧ ∃ q i j, q ≠ 0 ∧ i < j ∧ Is es i (.con q) ∧ Is es j (.use q) ∧ SameLife es q i j ∧ ¬ Hb o es i j := by
  have ho' : o.acq = false ∨ o.rel = false := by
    rcases o with ⟨_ | _, _ | _⟩ <;> simp [coded] at ho ⊢
  obtain ⟨c, hc⟩ := demo_run
  have key : ∀ i j, By demo i 0 → By demo j 1 → ¬ Hb o demo i j ∧ ¬ Hb o demo j i := by
    rintro i j ⟨l, hi⟩ ⟨l', hj⟩
    constructor <;> intro h <;> obtain ⟨t, ⟨l1, h1⟩, l2, h2⟩ := demo_hb ho' h
    · rw [hi] at h1; rw [hj] at h2; cases h1; cases h2
    · rw [hj] at h1; rw [hi] at h2; cases h1; cases h2
  refine ⟨demo, c, hc, ⟨11, 20, ⟨.ptr, true, false, ⟨0, rfl⟩, ⟨1, rfl⟩, Or.inl rfl⟩, by decide, key 11 20 ⟨_, rfl⟩ ⟨_, rfl⟩⟩,
    7, 1, 31, by decide, by decide, ⟨0, rfl⟩, ⟨1, rfl⟩, ?_, (key 1 31 ⟨_, rfl⟩ ⟨_, rfl⟩).1⟩
  intro k h1 h2 h3
  have : ∀ k : Fin 32, 1 < k.val → demo[k.val]?.map (fun e => match e.lab with | .con _ => true | _ => false) ≠ some true := by decide
  obtain ⟨t, h3⟩ := h3
  exact this ⟨k, by omega⟩ h1 (by simp only [h3]; rfl)

/-! ### The hypotheses are met -/

/-- in `demo`, the loading thread's use of the object is after its construction by the other thread -/
example : Hb coded demo 1 31 := by
  obtain ⟨c, hc⟩ := demo_run
  refine C59_constructed_first hc (q := 7) (by decide) ⟨0, rfl⟩ (by decide) (Or.inr (Or.inl ⟨1, rfl⟩)) ?_
  intro k h1 h2 h3
  have : ∀ k : Fin 32, 1 < k.val → demo[k.val]?.map (fun e => match e.lab with | .con _ => true | _ => false) ≠ some true := by decide
  obtain ⟨t, h3⟩ := h3
  exact this ⟨k, by omega⟩ h1 (by simp only [h3]; rfl)

/-- the call of `make` is before the return of `load` -/
example : Hb coded demo 0 28 := by
  obtain ⟨c, hc⟩ := demo_run
  exact C59_publication hc (m := 0) (i := 13) (j := 21) (n := 28) (t := 0) (t' := 1) ⟨_, rfl⟩ (by decide) rfl (by decide) rfl (by decide) ⟨_, rfl⟩

/-- a thread makes an object, uses it and destroys it -/
theorem example_destroyed : ∃ c, Run null [⟨0, .inv (.make 0)⟩, ⟨0, .con 7⟩, ⟨0, .none⟩, ⟨0, .none⟩, ⟨0, .none⟩, ⟨0, .ret (.make 0) (.ptr ⟨5, 7⟩)⟩,
    ⟨0, .inv (.reset 0)⟩, ⟨0, .dec 7 true⟩] c := by
  have a0 := (Run.start (v₀ := null)).inv 0 (.make 0) rfl
  have a1 := a0.goOn (.make _ .res ⟨5, 7⟩ (by decide) (by simp [initial, null]))
  have a2 := (((a1.goOn (.move _ .tmp .res)).goOn (.swap _ .tmp (.user 0))).goOn (.release _ .tmp)).done
  have b0 := (a2.inv 0 (.reset 0) (by simp)).goOn (.release _ (.user 0))
  refine ⟨_, b0.as ?_⟩
  simp [label, St.set, St.inc, St.dec, initial, null]

end Itlib.ASptr
