import Verif.StaticVector.StoreLemmas

/-! # Each call refines the specification (proof engineering) -/
namespace Itlib.StaticVector
open Itlib
variable {α : Type}

theorem step_length_le {cap : Nat} {E : Elem α} {op : Op α} {xs xs' : List α} {r : Reply α} (hc : xs.length ≤ cap)
    (h : Spec.step cap E op xs = some (r, xs')) : xs'.length ≤ cap := by
  cases op <;> simp only [Spec.step, Option.bind_eq_bind, Option.bind_eq_some_iff] at h <;> grind

theorem call_rep (E : Elem α) {cap : Nat} {op : Op α} {xs xs' : List α} {r : Reply α} (hcap' : cap < 2 ^ 63)
    (hc : xs.length ≤ cap) (hs : Spec.Safe cap op xs) (h : Spec.step cap E op xs = some (r, xs')) :
    call E op (rep cap xs) = some (r, rep cap xs') := by
  have hcap : cap < sizeMod := by simp only [sizeMod]; omega
  cases op with
  | pushBack v =>
    simp only [Spec.step, Option.bind_eq_bind, Option.bind_eq_some_iff] at h
    obtain ⟨a, ha, h⟩ := h
    split at h
    · rename_i hl
      simp at h; obtain ⟨rfl, rfl⟩ := h
      simp [call, exec, pushBack_rep ha hl]
    · rename_i hl
      simp at h; obtain ⟨rfl, rfl⟩ := h
      simp [call, exec, pushBack_full (v := v) (show cap ≤ xs.length by omega)]
  | emplaceBack v =>
    simp only [Spec.step, Option.bind_eq_bind, Option.bind_eq_some_iff] at h
    obtain ⟨a, ha, h⟩ := h
    split at h
    · rename_i hl
      simp at h; obtain ⟨rfl, rfl⟩ := h
      simp [call, exec, emplaceBack_rep ha hl]
    · rename_i hl
      simp at h; obtain ⟨rfl, rfl⟩ := h
      simp [call, exec, emplaceBack_full (v := v) (show cap ≤ xs.length by omega)]
  | popBack =>
    simp only [Spec.step] at h
    split at h
    · rename_i hl
      simp at h; obtain ⟨rfl, rfl⟩ := h
      subst hl
      simp [call, exec, popBack_empty]
    · rename_i hl
      simp at h; obtain ⟨rfl, rfl⟩ := h
      simp [call, exec, popBack_rep E hl hc]
  | insert pos v =>
    simp only [Spec.step, Option.bind_eq_bind, Option.bind_eq_some_iff] at h
    obtain ⟨a, ha, h⟩ := h
    split at h
    · rename_i hp
      split at h
      · rename_i hl
        simp only [Option.some.injEq, Prod.mk.injEq] at h; obtain ⟨rfl, rfl⟩ := h
        simp only [call, exec, M.bind_apply, insert_rep E ha (hs hl) hp hl hcap, M.pure_apply]
      · rename_i hl
        simp at h; obtain ⟨rfl, rfl⟩ := h
        simp [call, exec, insert, growAt_full E (pos := pos) (n := 1) (xs := xs) (cap := cap) (by omega) (by simp only [sizeMod]; omega)]
    · simp at h
  | insertN pos n v =>
    simp only [Spec.step, Option.bind_eq_bind, Option.bind_eq_some_iff] at h
    obtain ⟨a, ha, h⟩ := h
    split at h
    · rename_i hp
      split at h
      · rename_i hl
        simp only [Option.some.injEq, Prod.mk.injEq] at h; obtain ⟨rfl, rfl⟩ := h
        by_cases hn : n = 0
        · subst hn
          have := growAt_rep E (n := 0) hp hl hcap
          simp only [call, exec, insertN, M.bind_apply, this, fillLoop, M.pure_apply]
          have e : (⟨gap cap xs pos 0, xs.length + 0, none⟩ : SV α) = rep cap (xs.take pos ++ List.replicate 0 a ++ xs.drop pos) := by
            simp only [rep, SV.mk.injEq, and_true]
            constructor
            · rw [gap_eq]
              exact gapFill_full (ys := []) hp
            · simp
          rw [e]
        · have hst : Spec.Stable pos v := by
            rcases hs.2 with h | h | h
            · omega
            · omega
            · exact h
          simp only [call, exec, M.bind_apply, insertN_rep E ha hst hp hl hcap, M.pure_apply]
      · rename_i hl
        simp at h; obtain ⟨rfl, rfl⟩ := h
        simp [call, exec, insertN, growAt_full E (pos := pos) (n := n) (xs := xs) (cap := cap) (by omega)
          (by have := hs.1; simp only [sizeMod]; omega)]
    · simp at h
  | insertRange pos ys =>
    simp only [Spec.step] at h
    split at h
    · rename_i hp
      split at h
      · rename_i hl
        simp only [Option.some.injEq, Prod.mk.injEq] at h; obtain ⟨rfl, rfl⟩ := h
        simp only [call, exec, M.bind_apply, insertRange_rep E hp hl hcap, M.pure_apply]
      · rename_i hl
        simp at h; obtain ⟨rfl, rfl⟩ := h
        simp [call, exec, insertRange, growAt_full E (pos := pos) (n := ys.length) (xs := xs) (cap := cap) (by omega)
          (by simp only [Spec.Safe] at hs; simp only [sizeMod]; omega)]
    · simp at h
  | erase pos =>
    simp only [Spec.step] at h
    split at h
    · rename_i hp
      simp only [Option.some.injEq, Prod.mk.injEq] at h; obtain ⟨rfl, rfl⟩ := h
      simp only [call, exec, erase, M.bind_apply, shrinkAt_rep E (show pos + 1 ≤ xs.length by omega) hc (by omega),
        M.pure_apply]
      split
      · congr 3; omega
      · rfl
    · simp at h
  | eraseRange first last =>
    simp only [Spec.step] at h
    split at h
    · rename_i hp
      simp only [Option.some.injEq, Prod.mk.injEq] at h; obtain ⟨rfl, rfl⟩ := h
      by_cases hfl : first < last
      · simp only [call, exec, eraseRange, hp.1, if_true, M.bind_apply,
          shrinkAt_rep E (show first + (last - first) ≤ xs.length by omega) hc (by omega), M.pure_apply]
        rw [show first + (last - first) = last by omega]
        split
        · congr 3; omega
        · rfl
      · have h1 : first = xs.length := by
          rcases hs with h | h
          · omega
          · exact h
        have h2 : last = xs.length := by omega
        subst h1 h2
        by_cases hx : xs.length = 0
        · have : xs = [] := by simpa using hx
          subst this
          simp only [call, exec, eraseRange, shrinkAt, outOfRangeIf, M.bind_apply, M.get_apply, rep_size,
            List.length_nil, Nat.le_refl, if_true, Nat.sub_self, gt_iff_lt, Nat.lt_irrefl, if_false, M.pure_apply,
            clear_rep (show ([] : List α).length ≤ cap by simp)]
          simp
        · simp only [call, exec, eraseRange, shrinkAt, outOfRangeIf, M.bind_apply, M.get_apply, rep_size,
            Nat.le_refl, if_true, Nat.sub_self, gt_iff_lt, Nat.not_lt_zero, if_false, M.pure_apply, Nat.sub_zero, hx,
            Nat.add_zero, rep_cap]
          rw [onBuf_rep (b := Buf.ofList cap xs) (by simp [Buf.shiftDown])]
          simp only
          rw [onBuf_mk (b' := Buf.ofList cap xs) (by simp [Buf.destroyRange])]
          simp [rep]
    · simp at h
  | clear =>
    simp [Spec.step] at h; obtain ⟨rfl, rfl⟩ := h
    simp [call, exec, clear_rep hc]
  | resize n =>
    simp only [Spec.step] at h
    split at h
    · rename_i hn
      simp only [Option.some.injEq, Prod.mk.injEq] at h; obtain ⟨rfl, rfl⟩ := h
      simp only [call, exec, resize, M.bind_apply,
        resizeV_rep E (v := .val E.dflt) (a := E.dflt) (by simp [Spec.argVal]) hc hn, M.pure_apply]
    · rename_i hn
      simp at h; obtain ⟨rfl, rfl⟩ := h
      simp [call, exec, resize, resizeV_full E (v := .val E.dflt) (xs := xs) (show cap < n by omega)]
  | resizeV n v =>
    simp only [Spec.step, Option.bind_eq_bind, Option.bind_eq_some_iff] at h
    obtain ⟨a, ha, h⟩ := h
    split at h
    · rename_i hn
      simp only [Option.some.injEq, Prod.mk.injEq] at h; obtain ⟨rfl, rfl⟩ := h
      simp only [call, exec, M.bind_apply, resizeV_rep E ha hc hn, M.pure_apply]
    · rename_i hn
      simp at h; obtain ⟨rfl, rfl⟩ := h
      simp [call, exec, resizeV_full E (v := v) (xs := xs) (show cap < n by omega)]
  | assignN n v =>
    simp only [Spec.step, Option.bind_eq_bind, Option.bind_eq_some_iff] at h
    obtain ⟨a, ha, h⟩ := h
    obtain ⟨hn, hv⟩ := hs
    simp only [hn, if_true, Option.some.injEq, Prod.mk.injEq] at h; obtain ⟨rfl, rfl⟩ := h
    rcases hv with rfl | ⟨b, rfl⟩
    · simp [call, exec, assignN, clear_rep hc, assignImplVal, outOfRangeIf, pushN]
    · simp [Spec.argVal] at ha; subst ha
      simp [call, exec, assignN_rep hc hn]
  | assignRange ys =>
    simp only [Spec.step] at h
    have hn : ys.length ≤ cap := hs
    simp only [hn, if_true, Option.some.injEq, Prod.mk.injEq] at h; obtain ⟨rfl, rfl⟩ := h
    simp [call, exec, assignRange_rep hc hn]
  | set i v =>
    simp only [Spec.step, Option.bind_eq_bind, Option.bind_eq_some_iff] at h
    obtain ⟨a, ha, h⟩ := h
    split at h
    · rename_i hi
      simp only [Option.some.injEq, Prod.mk.injEq] at h; obtain ⟨rfl, rfl⟩ := h
      simp [call, exec, setAt_rep ha hi hc]
    · simp at h
  | moveElem i j =>
    simp only [Spec.step, Option.bind_eq_bind, Option.bind_eq_some_iff] at h
    obtain ⟨a, ha, h⟩ := h
    split at h
    · rename_i hi
      simp only [Option.some.injEq, Prod.mk.injEq] at h; obtain ⟨rfl, rfl⟩ := h
      simp [call, exec, moveElem_rep E ha hi.1 hi.2 hc]
    · simp at h
  | get i =>
    simp only [Spec.step, Option.bind_eq_bind, Option.bind_eq_some_iff] at h
    obtain ⟨a, ha, h⟩ := h
    simp only [Option.some.injEq, Prod.mk.injEq] at h; obtain ⟨rfl, rfl⟩ := h
    obtain ⟨hi, rfl⟩ := List.getElem?_eq_some_iff.mp ha
    simp [call, exec, at_rep hi hc]
  | front =>
    simp only [Spec.step, Option.bind_eq_bind, Option.bind_eq_some_iff] at h
    obtain ⟨a, ha, h⟩ := h
    simp only [Option.some.injEq, Prod.mk.injEq] at h; obtain ⟨rfl, rfl⟩ := h
    cases xs with
    | nil => simp at ha
    | cons x xs =>
      simp at ha; subst ha
      simp [call, exec, front, at_rep (show 0 < (x :: xs).length by simp) hc]
  | back =>
    simp only [Spec.step, Option.bind_eq_bind, Option.bind_eq_some_iff] at h
    obtain ⟨a, ha, h⟩ := h
    simp only [Option.some.injEq, Prod.mk.injEq] at h; obtain ⟨rfl, rfl⟩ := h
    have hx : xs ≠ [] := by rintro rfl; simp at ha
    rw [List.getLast?_eq_some_getLast hx] at ha
    simp at ha; subst ha
    simp [call, exec, back_rep hx hc]
  | size =>
    simp only [Spec.step, Option.some.injEq, Prod.mk.injEq] at h; obtain ⟨rfl, rfl⟩ := h
    simp [call, exec, size]
  | isEmpty =>
    simp only [Spec.step, Option.some.injEq, Prod.mk.injEq] at h; obtain ⟨rfl, rfl⟩ := h
    cases xs <;> simp [call, exec, isEmpty]
  | capacity =>
    simp only [Spec.step, Option.some.injEq, Prod.mk.injEq] at h; obtain ⟨rfl, rfl⟩ := h
    simp [call, exec, capacity]
  | forward =>
    simp only [Spec.step, Option.some.injEq, Prod.mk.injEq] at h; obtain ⟨rfl, rfl⟩ := h
    simp [call, exec, forward, readUp_rep hc xs.length 0 (by omega)]
  | backward =>
    simp only [Spec.step, Option.some.injEq, Prod.mk.injEq] at h; obtain ⟨rfl, rfl⟩ := h
    simp [call, exec, backward, readDown_rep hc xs.length (by omega)]

theorem run_rep (E : Elem α) {cap : Nat} (hcap : cap < 2 ^ 63) : ∀ (ops : List (Op α)) {xs xs' : List α}
    {rs : List (Reply α)}, xs.length ≤ cap → Spec.SafeRun cap E ops xs → Spec.run cap E ops xs = some (rs, xs') →
    run E ops (rep cap xs) = some (rs, rep cap xs') ∧ xs'.length ≤ cap := by
  intro ops
  induction ops with
  | nil => intro xs xs' rs hc _ h; simp [Spec.run] at h; obtain ⟨rfl, rfl⟩ := h; exact ⟨rfl, hc⟩
  | cons op ops ih =>
    intro xs xs' rs hc hs h
    simp only [Spec.run, Option.bind_eq_bind, Option.bind_eq_some_iff] at h
    obtain ⟨⟨r, xs1⟩, h1, ⟨rs1, xs2⟩, h2, h3⟩ := h
    simp only [Option.some.injEq, Prod.mk.injEq] at h3
    obtain ⟨rfl, rfl⟩ := h3
    simp only [Spec.SafeRun, h1] at hs
    have hl := step_length_le hc h1
    obtain ⟨e1, e2⟩ := ih hl hs.2 h2
    refine ⟨?_, e2⟩
    simp [run, call_rep E hcap hc hs.1 h1, e1]

/-- the store holding the vectors of `y`, with `g` the storage of dead vectors -/
def mrep (y : Spec.Sys α) (g : List (Buf α)) : Store α :=
  ⟨fun i => (y i).map fun p => rep p.1 p.2, g⟩

/-- all capacities are respected and are `size_t` -/
def Good (y : Spec.Sys α) : Prop := ∀ i cap xs, y i = some (cap, xs) → xs.length ≤ cap ∧ cap < 2 ^ 63

theorem mrep_vec {y : Spec.Sys α} {g : List (Buf α)} {i cap : Nat} {xs : List α} (h : y i = some (cap, xs)) :
    (mrep y g).vec i = some (rep cap xs) := by simp [mrep, h]

theorem mrep_vec_none {y : Spec.Sys α} {g : List (Buf α)} {i : Nat} (h : y i = none) :
    (mrep y g).vec i = none := by simp [mrep, h]

theorem mrep_put (y : Spec.Sys α) (g : List (Buf α)) (i cap : Nat) (xs : List α) :
    (mrep y g).put i (some (rep cap xs)) = mrep (y.put i (some (cap, xs))) g := by
  simp only [mrep, Store.put, Store.mk.injEq, and_true]
  funext j
  by_cases h : j = i
  · subst h; simp [Spec.Sys.put]
  · simp [Spec.Sys.put, h]

theorem sys_put_same {y : Spec.Sys α} {i : Nat} {v : Option (Nat × List α)} (h : y i = v) : y.put i v = y := by
  funext j; simp only [Spec.Sys.put]; split
  · rename_i e; rw [e, h]
  · rfl

theorem good_put {y : Spec.Sys α} (h : Good y) {i cap : Nat} {xs : List α} (h1 : xs.length ≤ cap) (h2 : cap < 2 ^ 63) :
    Good (y.put i (some (cap, xs))) := by
  intro j c zs hj
  simp only [Spec.Sys.put] at hj
  split at hj
  · simp at hj; obtain ⟨rfl, rfl⟩ := hj; exact ⟨h1, h2⟩
  · exact h j c zs hj

theorem good_put_none {y : Spec.Sys α} (h : Good y) {i : Nat} : Good (y.put i none) := by
  intro j c zs hj
  simp only [Spec.Sys.put] at hj
  split at hj
  · simp at hj
  · exact h j c zs hj

/-- the storage of dead vectors holds no live object -/
def AllRaw (g : List (Buf α)) : Prop := ∀ b ∈ g, ∀ i, b.cells i = .raw

theorem allRaw_nil : AllRaw ([] : List (Buf α)) := by intro b hb; simp at hb
theorem allRaw_one (cap : Nat) : AllRaw [(Buf.ofList cap [] : Buf α)] := by
  intro b hb j
  simp at hb
  subst hb
  simp [Buf.ofList]
theorem AllRaw.append {g g' : List (Buf α)} (h : AllRaw g) (h' : AllRaw g') : AllRaw (g ++ g') := by
  intro b hb
  rcases List.mem_append.mp hb with hb | hb
  · exact h b hb
  · exact h' b hb

theorem construct_mrep {y : Spec.Sys α} {g : List (Buf α)} {i cap : Nat} (h : y i = none) :
    construct i cap none (mrep y g) = .ok () (mrep (y.put i (some (cap, []))) g) := by
  simp only [construct, mrep_vec_none h, empty_eq_rep, mrep_put]

theorem sys_put_self (y : Spec.Sys α) (i : Nat) (v : Option (Nat × List α)) : (y.put i v) i = v := by
  simp [Spec.Sys.put]
theorem sys_put_ne (y : Spec.Sys α) {i j : Nat} (v : Option (Nat × List α)) (h : j ≠ i) : (y.put i v) j = y j := by
  simp [Spec.Sys.put, h]
@[simp] theorem sys_put_put (y : Spec.Sys α) (i : Nat) (v w : Option (Nat × List α)) :
    (y.put i v).put i w = y.put i w := by
  funext j; simp only [Spec.Sys.put]; split <;> rfl
theorem sys_put_comm (y : Spec.Sys α) {i j : Nat} (v w : Option (Nat × List α)) (h : i ≠ j) :
    (y.put i v).put j w = (y.put j w).put i v := by
  funext k; simp only [Spec.Sys.put]; grind

theorem bury_mrep {y : Spec.Sys α} {g : List (Buf α)} {i cap : Nat} {xs : List α} (h : y i = some (cap, xs)) :
    bury i (mrep y g) = mrep (y.put i none) (Buf.ofList cap xs :: g) := by
  simp only [bury, mrep_vec h]
  simp only [mrep, Store.mk.injEq, rep_buf, and_true]
  funext j
  by_cases h : j = i
  · subst h; simp [Spec.Sys.put]
  · simp [Spec.Sys.put, h]

/-- creating a vector by a constructor whose body fills the empty vector with `xs` or throws at once -/
theorem create_mrep {y : Spec.Sys α} {g : List (Buf α)} {i cap : Nat} {xs : List α} {body : M (Store α) Unit}
    (hy : y i = none)
    (hok : xs.length ≤ cap → body (mrep (y.put i (some (cap, []))) g) = .ok () (mrep (y.put i (some (cap, xs))) g))
    (hbad : cap < xs.length → body (mrep (y.put i (some (cap, []))) g) =
      .throw .outOfRange (mrep (y.put i (some (cap, []))) g)) :
    (xs.length ≤ cap ∧ ctorBody i body (mrep (y.put i (some (cap, []))) g) = .ok () (mrep (y.put i (some (cap, xs))) g)) ∨
    (cap < xs.length ∧ ∃ g', AllRaw g' ∧ ctorBody i body (mrep (y.put i (some (cap, []))) g) =
      .throw .outOfRange (mrep y (g' ++ g))) := by
  by_cases h : xs.length ≤ cap
  · left
    refine ⟨h, ?_⟩
    simp [ctorBody, hok h]
  · right
    refine ⟨by omega, [Buf.ofList cap []], allRaw_one cap, ?_⟩
    · simp only [List.singleton_append, ctorBody, hbad (by omega)]
      rw [bury_mrep (sys_put_self _ _ _), sys_put_put, sys_put_same hy]

theorem mcall_mrep (E : Elem α) {op : MOp α} {y y' : Spec.Sys α} {g : List (Buf α)} {r : Reply α} (hy : Good y)
    (hs : Spec.MSafe op y) (h : Spec.mstep E op y = some (r, y')) :
    ∃ g', AllRaw g' ∧ Good y' ∧ mcall E op (mrep y g) = some (r, mrep y' (g' ++ g)) := by
  cases op with
  | ctor i cap =>
    simp only [Spec.mstep] at h
    split at h
    · simp at h
    · rename_i hi
      simp at h; obtain ⟨rfl, rfl⟩ := h
      have hi : y i = none := by simpa using hi
      refine ⟨[], allRaw_nil, good_put hy (by simp) (by simpa [Spec.MSafe] using hs), ?_⟩
      simp [mcall, mexec, construct_mrep hi]
  | ctorCount i cap count =>
    simp only [Spec.mstep] at h
    split at h
    · simp at h
    · rename_i hi
      have hi : y i = none := by simpa using hi
      have hcap : cap < 2 ^ 63 := by simpa [Spec.MSafe] using hs
      have := create_mrep (g := g) (cap := cap) (xs := List.replicate count E.dflt) (body := at' i (resize E count)) hi
        (by
          intro hc
          simp only [resize]
          have := resizeV_rep E (n := count) (xs := []) (v := .val E.dflt) (a := E.dflt) (cap := cap)
            (by simp [Spec.argVal]) (by simp) (by simpa using hc)
          rw [at'_ok (mrep_vec (sys_put_self _ _ _)) this, mrep_put, sys_put_put]
          simp)
        (by
          intro hc
          simp only [resize]
          rw [at'_throw (mrep_vec (sys_put_self _ _ _)) (resizeV_full E (by simpa using hc)), mrep_put, sys_put_put])
      rcases this with ⟨h1, h2⟩ | ⟨h1, g', h2, h3⟩
      · simp only [h1, if_true, Option.some.injEq, Prod.mk.injEq] at h
        obtain ⟨rfl, rfl⟩ := h
        refine ⟨[], allRaw_nil, good_put hy h1 hcap, ?_⟩
        simp [mcall, mexec, ctorCount, construct_mrep hi, h2]
      · rw [if_neg (by omega)] at h
        simp at h
        obtain ⟨rfl, rfl⟩ := h
        refine ⟨g', h2, hy, ?_⟩
        simp [mcall, mexec, ctorCount, construct_mrep hi, h3]
  | ctorVal i cap count a =>
    simp only [Spec.mstep] at h
    split at h
    · simp at h
    · rename_i hi
      have hi : y i = none := by simpa using hi
      have hcap : cap < 2 ^ 63 := by simpa [Spec.MSafe] using hs
      have := create_mrep (g := g) (cap := cap) (xs := List.replicate count a)
        (body := at' i (assignImplVal count (.val a))) hi
        (by
          intro hc
          rw [at'_ok (mrep_vec (sys_put_self _ _ _)) (assignImplVal_rep (by simpa using hc)), mrep_put, sys_put_put])
        (by
          intro hc
          have hc : cap < count := by simpa using hc
          rw [at'_throw (mrep_vec (sys_put_self _ _ _)) (e := .outOfRange) (v' := rep cap [])
            (by simp [assignImplVal, outOfRangeIf, hc]), mrep_put, sys_put_put])
      rcases this with ⟨h1, h2⟩ | ⟨h1, g', h2, h3⟩
      · simp only [h1, if_true, Option.some.injEq, Prod.mk.injEq] at h
        obtain ⟨rfl, rfl⟩ := h
        refine ⟨[], allRaw_nil, good_put hy h1 hcap, ?_⟩
        simp [mcall, mexec, ctorVal, construct_mrep hi, h2]
      · rw [if_neg (by omega)] at h
        simp at h
        obtain ⟨rfl, rfl⟩ := h
        refine ⟨g', h2, hy, ?_⟩
        simp [mcall, mexec, ctorVal, construct_mrep hi, h3]
  | ctorRange i cap xs =>
    simp only [Spec.mstep] at h
    split at h
    · simp at h
    · rename_i hi
      have hi : y i = none := by simpa using hi
      have hcap : cap < 2 ^ 63 := by simpa [Spec.MSafe] using hs
      have := create_mrep (g := g) (cap := cap) (xs := xs)
        (body := at' i (assignImplRange xs)) hi
        (by
          intro hc
          rw [at'_ok (mrep_vec (sys_put_self _ _ _)) (assignImplRange_rep hc), mrep_put, sys_put_put])
        (by
          intro hc
          rw [at'_throw (mrep_vec (sys_put_self _ _ _)) (e := .outOfRange) (v' := rep cap [])
            (by simp [assignImplRange, outOfRangeIf, hc]), mrep_put, sys_put_put])
      rcases this with ⟨h1, h2⟩ | ⟨h1, g', h2, h3⟩
      · simp only [h1, if_true, Option.some.injEq, Prod.mk.injEq] at h
        obtain ⟨rfl, rfl⟩ := h
        refine ⟨[], allRaw_nil, good_put hy h1 hcap, ?_⟩
        simp [mcall, mexec, ctorRange, construct_mrep hi, h2]
      · rw [if_neg (by omega)] at h
        simp at h
        obtain ⟨rfl, rfl⟩ := h
        refine ⟨g', h2, hy, ?_⟩
        simp [mcall, mexec, ctorRange, construct_mrep hi, h3]
  | copyCtor i cap j =>
    simp only [Spec.mstep, Option.bind_eq_bind, Option.bind_eq_some_iff] at h
    obtain ⟨⟨capj, ys⟩, hj, h⟩ := h
    simp only at h
    split at h
    · simp at h
    · rename_i hi
      have hi : y i = none := by simpa using hi
      have hne : i ≠ j := by rintro rfl; simp [hi] at hj
      have hcap : cap < 2 ^ 63 := by simpa [Spec.MSafe] using hs
      have hvj : (mrep (y.put i (some (cap, []))) g).vec j = some (rep capj ys) :=
        mrep_vec (by rw [sys_put_ne _ _ hne.symm]; exact hj)
      have := create_mrep (g := g) (cap := cap) (xs := ys)
        (body := do
          let n ← at' j (do let s ← M.get; pure s.size)
          if n > cap then .raise .outOfRange
          else copyFromLoop i j 0 n) hi
        (by
          intro hc
          simp only [M.bind_apply]
          rw [at'_read hvj (b := ys.length) (by simp)]
          have : ¬ (cap < ys.length) := by omega
          simp only [gt_iff_lt, this, if_false]
          rw [copyFromLoop_rep (cd := cap) hne (hy j capj ys hj).1 _ _ [] _ hvj
            (mrep_vec (sys_put_self _ _ _)) (by omega) (by simpa using hc), mrep_put, sys_put_put]
          simp)
        (by
          intro hc
          simp only [M.bind_apply]
          rw [at'_read hvj (b := ys.length) (by simp)]
          simp [hc])
      rcases this with ⟨h1, h2⟩ | ⟨h1, g', h2, h3⟩
      · simp only [h1, if_true, Option.some.injEq, Prod.mk.injEq] at h
        obtain ⟨rfl, rfl⟩ := h
        refine ⟨[], allRaw_nil, good_put hy h1 hcap, ?_⟩
        simp only [mcall, mexec, copyCtor, construct_mrep hi, h2, M.bind_apply, M.pure_apply, List.nil_append]
      · rw [if_neg (by omega)] at h
        simp at h
        obtain ⟨rfl, rfl⟩ := h
        refine ⟨g', h2, hy, ?_⟩
        simp only [mcall, mexec, copyCtor, construct_mrep hi, h3, M.bind_apply]
  | moveCtor i j =>
    simp only [Spec.mstep, Option.bind_eq_bind, Option.bind_eq_some_iff] at h
    obtain ⟨⟨cap, ys⟩, hj, h⟩ := h
    simp only at h
    split at h
    · simp at h
    · rename_i hi
      have hi : y i = none := by simpa using hi
      have hne : i ≠ j := by rintro rfl; simp [hi] at hj
      obtain ⟨hl, hcap⟩ := hy j cap ys hj
      simp at h; obtain ⟨rfl, rfl⟩ := h
      refine ⟨[], allRaw_nil, good_put (good_put hy hl hcap) (by simp) hcap, ?_⟩
      simp only [mcall, mexec, moveCtor, M.bind_apply]
      rw [at'_read (mrep_vec hj) (b := (cap, ys.length)) (by simp)]
      simp only [construct_mrep hi]
      have hvj : (mrep (y.put i (some (cap, []))) g).vec j = some (rep cap ys) :=
        mrep_vec (by rw [sys_put_ne _ _ hne.symm]; exact hj)
      obtain ⟨ys', hl', he⟩ := moveFromLoop_rep E (cd := cap) hne ys.length 0 ys [] _ hvj (mrep_vec (sys_put_self _ _ _))
        (by omega) (by simpa using hl) hl
      rw [he]
      simp only
      rw [at'_ok (put_vec_self _ _ _) (clear_rep (by omega))]
      simp only [M.pure_apply, mrep_put, sys_put_put, List.drop_zero, List.nil_append]
  | copyAssign i j =>
    simp only [Spec.mstep, Option.bind_eq_bind, Option.bind_eq_some_iff] at h
    obtain ⟨⟨cap, xs⟩, hi, ⟨capj, ys⟩, hj, h⟩ := h
    simp only at h
    split at h
    · rename_i hcc
      subst hcc
      simp at h; obtain ⟨rfl, rfl⟩ := h
      obtain ⟨hl, hcap⟩ := hy j cap ys hj
      refine ⟨[], allRaw_nil, good_put hy hl hcap, ?_⟩
      by_cases hne : i = j
      · subst hne
        simp [mcall, mexec, copyAssign, sys_put_same hj]
      · simp only [mcall, mexec, copyAssign, hne, if_false, M.bind_apply]
        rw [at'_ok (mrep_vec hi) (clear_rep (hy i cap xs hi).1)]
        simp only [mrep_put]
        have hvj : (mrep (y.put i (some (cap, []))) g).vec j = some (rep cap ys) :=
          mrep_vec (by rw [sys_put_ne _ _ (Ne.symm hne)]; exact hj)
        rw [at'_read hvj (b := ys.length) (by simp)]
        simp only
        rw [copyFromLoop_rep (cd := cap) hne hl _ _ [] _ hvj
            (mrep_vec (sys_put_self _ _ _)) (by omega) (by simpa using hl), mrep_put, sys_put_put]
        simp
    · simp at h
  | moveAssign i j =>
    simp only [Spec.mstep, Option.bind_eq_bind, Option.bind_eq_some_iff] at h
    obtain ⟨⟨cap, xs⟩, hi, ⟨capj, ys⟩, hj, h⟩ := h
    simp only at h
    split at h
    · rename_i hcc
      subst hcc
      have hne : i ≠ j := hs
      simp only [hne, if_false, Option.some.injEq, Prod.mk.injEq] at h; obtain ⟨rfl, rfl⟩ := h
      obtain ⟨hl, hcap⟩ := hy j cap ys hj
      refine ⟨[], allRaw_nil, good_put (good_put hy hl hcap) (by simp) hcap, ?_⟩
      simp only [mcall, mexec, moveAssign, M.bind_apply]
      rw [at'_read (mrep_vec hj) (b := ys.length) (by simp)]
      simp only
      rw [at'_ok (mrep_vec hi) (clear_rep (hy i cap xs hi).1)]
      simp only [mrep_put]
      have hvj : (mrep (y.put i (some (cap, []))) g).vec j = some (rep cap ys) :=
        mrep_vec (by rw [sys_put_ne _ _ hne.symm]; exact hj)
      obtain ⟨ys', hl', he⟩ := moveFromLoop_rep E (cd := cap) hne ys.length 0 ys [] _ hvj (mrep_vec (sys_put_self _ _ _))
        (by omega) (by simpa using hl) hl
      rw [he]
      simp only
      rw [at'_ok (put_vec_self _ _ _) (clear_rep (by omega))]
      simp only [M.pure_apply, mrep_put, sys_put_put, List.drop_zero, List.nil_append]
    · simp at h
  | swap i j =>
    simp only [Spec.mstep, Option.bind_eq_bind, Option.bind_eq_some_iff] at h
    obtain ⟨⟨cap, xs⟩, hi, ⟨capj, ys⟩, hj, h⟩ := h
    simp only at h
    split at h
    · rename_i hcc
      subst hcc
      simp at h; obtain ⟨rfl, rfl⟩ := h
      obtain ⟨hl, hcap⟩ := hy j cap ys hj
      obtain ⟨hl', _⟩ := hy i cap xs hi
      refine ⟨[], allRaw_nil, good_put (good_put hy hl hcap) hl' hcap, ?_⟩
      by_cases hne : i = j
      · subst hne
        have : (cap, xs) = (cap, ys) := by rw [hi] at hj; simpa using hj
        simp at this; subst this
        simp only [mcall, mexec, M.bind_apply, swap_self E (mrep_vec hi) hl, M.pure_apply, sys_put_put, sys_put_same hi, List.nil_append]
      · simp only [mcall, mexec, M.bind_apply, swap_lt E hne (mrep_vec hi) (mrep_vec hj) hl' hl, M.pure_apply, mrep_put, List.nil_append]
    · simp at h
  | dtor i =>
    simp only [Spec.mstep, Option.bind_eq_bind, Option.bind_eq_some_iff] at h
    obtain ⟨⟨cap, xs⟩, hi, h⟩ := h
    simp at h; obtain ⟨rfl, rfl⟩ := h
    refine ⟨[Buf.ofList cap []], allRaw_one cap, good_put_none hy, ?_⟩
    · simp only [List.singleton_append, mcall, mexec, destruct, dtor, M.bind_apply]
      rw [at'_ok (mrep_vec hi) (clear_rep (hy i cap xs hi).1)]
      simp only [mrep_put, M.modify_apply, M.pure_apply]
      rw [bury_mrep (sys_put_self _ _ _), sys_put_put]
  | call i op =>
    simp only [Spec.mstep, Option.bind_eq_bind, Option.bind_eq_some_iff] at h
    obtain ⟨⟨cap, xs⟩, hi, ⟨r', xs'⟩, hst, h⟩ := h
    simp at h; obtain ⟨rfl, rfl⟩ := h
    obtain ⟨hl, hcap⟩ := hy i cap xs hi
    refine ⟨[], allRaw_nil, good_put hy (step_length_le hl hst) hcap, ?_⟩
    have := call_rep E hcap hl (hs cap xs hi) hst
    simp only [call] at this
    simp only [mcall, mexec]
    split at this
    · rename_i r s hex
      simp at this; obtain ⟨rfl, rfl⟩ := this
      rw [at'_ok (mrep_vec hi) hex]
      simp [mrep_put]
    · rename_i e s hex
      simp at this; obtain ⟨rfl, rfl⟩ := this
      rw [at'_throw (mrep_vec hi) hex]
      simp [mrep_put]
    · simp at this

theorem mrun_mrep (E : Elem α) : ∀ (ops : List (MOp α)) {y y' : Spec.Sys α} {g : List (Buf α)} {rs : List (Reply α)},
    Good y → AllRaw g → Spec.MSafeRun E ops y → Spec.mrun E ops y = some (rs, y') →
    ∃ g', AllRaw g' ∧ Good y' ∧ mrun E ops (mrep y g) = some (rs, mrep y' g') := by
  intro ops
  induction ops with
  | nil =>
    intro y y' g rs hy hg _ h
    simp [Spec.mrun] at h; obtain ⟨rfl, rfl⟩ := h
    exact ⟨g, hg, hy, rfl⟩
  | cons op ops ih =>
    intro y y' g rs hy hg hs h
    simp only [Spec.mrun, Option.bind_eq_bind, Option.bind_eq_some_iff] at h
    obtain ⟨⟨r, y1⟩, h1, ⟨rs1, y2⟩, h2, h3⟩ := h
    simp only [Option.some.injEq, Prod.mk.injEq] at h3
    obtain ⟨rfl, rfl⟩ := h3
    simp only [Spec.MSafeRun, h1] at hs
    obtain ⟨g1, hg1, hy1, e1⟩ := mcall_mrep (g := g) E hy hs.1 h1
    obtain ⟨g2, hg2, hy2, e2⟩ := ih hy1 (hg1.append hg) hs.2 h2
    exact ⟨g2, hg2, hy2, by simp [mrun, e1, e2]⟩

end Itlib.StaticVector
