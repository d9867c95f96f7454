import Verif.StaticVector.ThrowLemmas

/-! # Programs with several `static_vector`s and throwing elements refine the specification (proof engineering) -/
namespace Itlib.StaticVector
open Itlib Spec
variable {α : Type}

theorem range_filterMap (xs : List α) : ∀ n, (List.range n).filterMap (xs[·]?) = xs.take n := by
  intro n
  induction n with
  | zero => simp
  | succ n ih =>
    rw [List.range_succ, List.filterMap_append, ih, List.take_add_one]
    cases h : xs[n]? <;> simp [h]

theorem objects_ofList {cap : Nat} {xs : List α} (h : xs.length ≤ cap) : objects (Buf.ofList cap xs) = xs := by
  have : ∀ n, objects ⟨n, (Buf.ofList cap xs).cells⟩ = xs.take n := by
    intro n
    rw [← range_filterMap]
    unfold objects
    congr 1
    funext i
    simp only [Buf.ofList_cells]
    cases h : xs[i]? <;> simp
  rw [show Buf.ofList cap xs = ⟨cap, (Buf.ofList cap xs).cells⟩ from rfl, this, List.take_of_length_le h]

theorem objects_raw {b : Buf α} (h : ∀ i, b.cells i = .raw) : objects b = [] := by
  simp [objects, h]

/-- the live objects in dead storage -/
def dead (g : List (Buf α)) : List α := g.reverse.flatMap objects

theorem dead_append (g g' : List (Buf α)) : dead (g' ++ g) = dead g ++ dead g' := by
  simp [dead]

theorem dead_raw {g : List (Buf α)} (h : AllRaw g) : dead g = [] := by
  simp only [dead, List.flatMap_eq_nil_iff, List.mem_reverse]
  exact fun b hb => objects_raw (h b hb)

theorem dead_one {cap : Nat} {xs : List α} (h : xs.length ≤ cap) : dead [Buf.ofList cap xs] = xs := by
  simp [dead, objects_ofList h]

theorem disarm_mrep (y : Sys α) (g : List (Buf α)) : disarm (mrep y g) = mrep y g := by
  simp only [disarm, mrep, Store.mk.injEq, and_true]
  funext i
  cases y i <;> rfl

theorem disarm_put (y : Sys α) (g : List (Buf α)) (i cap : Nat) (xs : List α) (c : Option Nat) :
    disarm ((mrep y g).put i (some ((rep cap xs).tk c))) = mrep (y.put i (some (cap, xs))) g := by
  rw [← disarm_mrep (y.put i (some (cap, xs))), ← mrep_put]
  simp only [disarm, Store.put, Store.mk.injEq, and_true]
  funext j
  by_cases h : j = i
  · subst h; simp
  · simp [h]

theorem arm_mrep {y : Sys α} {g : List (Buf α)} {i cap : Nat} {xs : List α} (h : y i = some (cap, xs)) (c : Option Nat) :
    arm i c (mrep y g) = (mrep y g).put i (some ((rep cap xs).tk c)) := by
  simp only [arm, mrep_vec h, Option.map_some, Store.put]

theorem bury_put {y : Sys α} {g : List (Buf α)} {i cap : Nat} {xs : List α} (h : y i = none) (c : Option Nat) :
    bury i ((mrep y g).put i (some ((rep cap xs).tk c))) = mrep y ([Buf.ofList cap xs] ++ g) := by
  simp only [bury, put_vec_self, tk_buf, rep_buf, put_graves, List.singleton_append]
  simp only [Store.put, mrep, Function.update_idem, Store.mk.injEq, and_true]
  funext j
  by_cases hj : j = i
  · subst hj; simp [h]
  · simp [hj]

/-- creating a vector by a constructor whose body fills the empty vector with `xs`, elements throwing as `c` says -/
theorem create_tick {y : Sys α} {g : List (Buf α)} {i cap : Nat} {xs : List α} {c : Option Nat} {body : M (Store α) Unit}
    (hy : y i = none)
    (hok : xs.length ≤ cap → Enough c xs.length →
      ∃ c', body ((mrep y g).put i (some ((rep cap []).tk c))) = .ok () ((mrep y g).put i (some ((rep cap xs).tk c'))))
    (hbad : cap < xs.length → ∃ c', body ((mrep y g).put i (some ((rep cap []).tk c))) =
      .throw .outOfRange ((mrep y g).put i (some ((rep cap []).tk c'))))
    (hfault : xs.length ≤ cap → ∀ k, c = some k → k < xs.length → body ((mrep y g).put i (some ((rep cap []).tk c))) =
      .throw .element ((mrep y g).put i (some ((rep cap (xs.take k)).tk none)))) :
    match fault c (if xs.length ≤ cap then xs.length else 0) with
    | none =>
      if xs.length ≤ cap then ∃ c', (construct i cap c >>= fun _ => ctorBody i body) (mrep y g) =
        .ok () ((mrep y g).put i (some ((rep cap xs).tk c')))
      else (construct i cap c >>= fun _ => ctorBody i body) (mrep y g) =
        .throw .outOfRange (mrep y ([Buf.ofList cap []] ++ g))
    | some k => xs.length ≤ cap ∧ (construct i cap c >>= fun _ => ctorBody i body) (mrep y g) =
        .throw .element (mrep y ([Buf.ofList cap (xs.take k)] ++ g)) := by
  have h0 : construct i cap c (mrep y g) = .ok () ((mrep y g).put i (some ((rep cap []).tk c))) := by
    have : (empty cap c : SV α) = (rep cap []).tk c := by simp [empty, rep, SV.tk, Buf.ofList_nil]
    simp only [construct, mrep_vec_none hy, this]
  simp only [M.bind_apply, h0]
  by_cases hl : xs.length ≤ cap
  · simp only [if_pos hl]
    rcases fault_cases c xs.length with ⟨h1, h2⟩ | ⟨k, h1, h2, h3⟩
    · rw [h1]
      obtain ⟨c', h3⟩ := hok hl h2
      exact ⟨c', by simp [ctorBody, h3]⟩
    · rw [h3]
      refine ⟨hl, ?_⟩
      simp only [ctorBody, hfault hl k h1 h2, bury_put hy]
  · simp only [if_neg hl]
    rw [show fault c 0 = none by cases c <;> simp [fault]]
    obtain ⟨c', h3⟩ := hbad (by omega)
    simp only [ctorBody, h3, bury_put hy]

/-- the copying loop with a late throw point -/
theorem copyFromLoop_tick {dst src cd cs : Nat} (hne : dst ≠ src) {xs : List α} (hcs : xs.length ≤ cs) :
    ∀ (f k : Nat) (ys : List α) (c : Option Nat) (st : Store α), st.vec src = some (rep cs xs) →
    st.vec dst = some ((rep cd ys).tk c) → k + f = xs.length → ys.length + f ≤ cd → Enough c f →
    copyFromLoop dst src k f st = .ok () (st.put dst (some ((rep cd (ys ++ xs.drop k)).tk (spend c f)))) := by
  intro f
  induction f with
  | zero =>
    intro k ys c st hs hd hk hc he
    rw [List.drop_of_length_le (by omega), List.append_nil, spend_zero, put_same st hd]
    rfl
  | succ f ih =>
    intro k ys c st hs hd hk hc he
    have hkl : k < xs.length := by omega
    have he' := enough_add (show Enough c (1 + f) by rwa [Nat.add_comm])
    have hp := (pushBack_frame (rep cd ys) (.val xs[k])).ok (pushBack_rep (a := xs[k]) rfl (by omega)) he'.1
    simp only [copyFromLoop, M.bind_apply, at'_read hs (at_rep hkl hcs), at'_ok hd hp]
    rw [ih (k + 1) _ (spend c 1) _ (by rw [put_vec_ne _ _ (Ne.symm hne)]; exact hs) (put_vec_self _ _ _) (by omega)
      (by simp; omega) he'.2, put_put, spend_add, Nat.add_comm 1 f, List.append_assoc, List.singleton_append,
      ← List.drop_eq_getElem_cons hkl]

/-- the copying loop when an element throws -/
theorem copyFromLoop_fault {dst src cd cs : Nat} (hne : dst ≠ src) {xs : List α} (hcs : xs.length ≤ cs) :
    ∀ (k p f : Nat) (ys : List α) (st : Store α), st.vec src = some (rep cs xs) →
    st.vec dst = some ((rep cd ys).tk (some k)) → p + f = xs.length → ys.length + f ≤ cd → k < f →
    copyFromLoop dst src p f st = .throw .element (st.put dst (some (rep cd (ys ++ (xs.drop p).take k)))) := by
  intro k
  induction k with
  | zero =>
    intro p f ys st hs hd hp hc hk
    obtain ⟨f, rfl⟩ : ∃ n, f = n + 1 := ⟨f - 1, by omega⟩
    have hkl : p < xs.length := by omega
    simp only [copyFromLoop, M.bind_apply, at'_read hs (at_rep hkl hcs)]
    rw [at'_throw hd (pushBack_zero (a := xs[p]) rfl (by omega))]
    simp
  | succ k ih =>
    intro p f ys st hs hd hp hc hk
    obtain ⟨f, rfl⟩ : ∃ n, f = n + 1 := ⟨f - 1, by omega⟩
    have hkl : p < xs.length := by omega
    simp only [copyFromLoop, M.bind_apply, at'_read hs (at_rep hkl hcs)]
    rw [at'_ok hd (pushBack_succ (a := xs[p]) rfl (by omega))]
    simp only
    rw [ih (p + 1) f _ _ (by rw [put_vec_ne _ _ (Ne.symm hne)]; exact hs) (put_vec_self _ _ _) (by omega)
      (by simp; omega) (by omega), put_put, List.drop_eq_getElem_cons hkl, List.take_succ_cons, List.append_assoc,
      List.singleton_append]

theorem tcall_ctor {E : Elem α} {y : Sys α} {g : List (Buf α)} {i cap : Nat} {xs : List α} {t : TOp α} {f : M (Store α) Unit}
    {r0 : Reply α} {y0 : Sys α}
    (ht : texec E t.c t.op = f >>= fun _ => pure .done)
    (hf : match fault t.c (if xs.length ≤ cap then xs.length else 0) with
      | none =>
        if xs.length ≤ cap then ∃ c', f (mrep y g) = .ok () ((mrep y g).put i (some ((rep cap xs).tk c')))
        else f (mrep y g) = .throw .outOfRange (mrep y ([Buf.ofList cap []] ++ g))
      | some k => xs.length ≤ cap ∧ f (mrep y g) = .throw .element (mrep y ([Buf.ofList cap (xs.take k)] ++ g)))
    (hy : Good y) (hcap : cap < 2 ^ 63)
    (h0 : (if xs.length ≤ cap then some (Reply.done, y.put i (some (cap, xs))) else some (.exc .outOfRange, y)) = some (r0, y0)) :
    ∃ r lost y', (match fault t.c (if xs.length ≤ cap then xs.length else 0) with
        | none => some (r0, [], y0)
        | some k => some (.exc .element, xs.take k, y)) = some (r, lost, y') ∧
      ∃ g', dead g' = lost ∧ Good y' ∧ tcall E t (mrep y g) = some (r, mrep y' (g' ++ g)) := by
  cases hc : fault t.c (if xs.length ≤ cap then xs.length else 0) with
  | none =>
    rw [hc] at hf
    simp only at hf
    by_cases hl : xs.length ≤ cap
    · simp only [if_pos hl, Option.some.injEq, Prod.mk.injEq] at hf h0
      obtain ⟨rfl, rfl⟩ := h0
      obtain ⟨c', hf⟩ := hf
      refine ⟨_, _, _, rfl, [], rfl, good_put hy hl hcap, ?_⟩
      simp only [tcall, ht, M.bind_apply, hf, M.pure_apply, disarm_put, List.nil_append]
    · simp only [if_neg hl, Option.some.injEq, Prod.mk.injEq] at hf h0
      obtain ⟨rfl, rfl⟩ := h0
      refine ⟨_, _, _, rfl, [Buf.ofList cap []], dead_one (by simp), hy, ?_⟩
      simp only [tcall, ht, M.bind_apply, hf, disarm_mrep]
  | some k =>
    rw [hc] at hf
    simp only at hf
    refine ⟨_, _, _, rfl, [Buf.ofList cap (xs.take k)], dead_one (by simp; omega), hy, ?_⟩
    simp only [tcall, ht, M.bind_apply, hf.2, disarm_mrep]

/-- what the specification says of a call with throw points happens -/
def Refined (E : Elem α) (t : TOp α) (y : Sys α) (g : List (Buf α)) : Prop :=
  match mtstep E t y with
  | some (r, lost, y') => ∃ g', dead g' = lost ∧ Good y' ∧ tcall E t (mrep y g) = some (r, mrep y' (g' ++ g))
  | none => ∃ i op, t.op = .call i op ∧ ∃ st, tcall E t (mrep y g) = some (.exc .element, st) ∧ destruct i st = .ub

/-- the calls that construct no elements -/
theorem tcall_other (E : Elem α) {t : TOp α} {y y' : Sys α} {g : List (Buf α)} {r : Reply α} (hy : Good y)
    (hs : MSafe t.op y) (h : mstep E t.op y = some (r, y')) (hx : texec E t.c t.op = mexec E t.op) :
    ∃ g', dead g' = [] ∧ Good y' ∧ tcall E t (mrep y g) = some (r, mrep y' (g' ++ g)) := by
  obtain ⟨g', h1, h2, h3⟩ := mcall_mrep (g := g) E hy hs h
  refine ⟨g', dead_raw h1, h2, ?_⟩
  simp only [mcall] at h3
  simp only [tcall, hx]
  cases e : mexec E t.op (mrep y g) with
  | ok b st =>
    rw [e] at h3
    simp only [Option.some.injEq, Prod.mk.injEq] at h3 ⊢
    exact ⟨h3.1, by rw [h3.2, disarm_mrep]⟩
  | throw b st =>
    rw [e] at h3
    simp only [Option.some.injEq, Prod.mk.injEq] at h3 ⊢
    exact ⟨h3.1, by rw [h3.2, disarm_mrep]⟩
  | ub => rw [e] at h3; simp at h3

theorem tstep_enough {cap : Nat} {E : Elem α} {c : Option Nat} {op : Op α} {xs : List α}
    (h : fault c (made cap op xs) = none) : tstep cap E c op xs = step cap E op xs := by
  simp only [tstep, h, Option.bind_eq_bind]
  cases step cap E op xs <;> rfl

theorem tcall_mrep (E : Elem α) {t : TOp α} {y : Sys α} {g : List (Buf α)} (hy : Good y)
    (hs : MSafe t.op y) (h : (mstep E t.op y).isSome) : Refined E t y g := by
  obtain ⟨⟨r0, y0⟩, h0⟩ := Option.isSome_iff_exists.mp h
  obtain ⟨op, c⟩ := t
  cases op with
  | ctor i cap =>
    simp only [Refined, mtstep, h0, Option.bind_eq_bind, Option.bind_some]
    exact tcall_other E hy hs h0 rfl
  | moveCtor i j =>
    simp only [Refined, mtstep, h0, Option.bind_eq_bind, Option.bind_some]
    exact tcall_other E hy hs h0 rfl
  | moveAssign i j =>
    simp only [Refined, mtstep, h0, Option.bind_eq_bind, Option.bind_some]
    exact tcall_other E hy hs h0 rfl
  | swap i j =>
    simp only [Refined, mtstep, h0, Option.bind_eq_bind, Option.bind_some]
    exact tcall_other E hy hs h0 rfl
  | dtor i =>
    simp only [Refined, mtstep, h0, Option.bind_eq_bind, Option.bind_some]
    exact tcall_other E hy hs h0 rfl
  | ctorCount i cap n =>
    have hi : y i = none := by
      cases hi : y i with
      | none => rfl
      | some p => simp [mstep, hi] at h0
    have hcap : cap < 2 ^ 63 := hs
    have hc := create_tick (g := g) (cap := cap) (xs := List.replicate n E.dflt) (c := c) (body := at' i (resize E n)) hi
      (fun h1 h2 => by
        simp only [List.length_replicate] at h1 h2
        have h3 := (resizeV_frame E (v := .val E.dflt) (a := E.dflt) (cap := cap) (n := n) (xs := []) (by simp) fun _ => rfl).ok
          (resizeV_rep E (v := .val E.dflt) (a := E.dflt) rfl (by simp) h1) (c := c)
          (by simpa [if_pos h1] using h2)
        refine ⟨spend c (if n ≤ cap then n - ([] : List α).length else 0), ?_⟩
        rw [resize, at'_ok (put_vec_self _ _ _) h3, put_put]
        simp)
      (fun h1 => by
        simp only [List.length_replicate] at h1
        refine ⟨c, ?_⟩
        rw [resize, at'_throw (put_vec_self _ _ _) (e := .outOfRange) (v' := (rep cap []).tk c)
          (by simp [resizeV, outOfRangeIf, h1]), put_put])
      (fun h1 k hk h2 => by
        subst hk
        simp only [List.length_replicate] at h1 h2
        rw [resize, at'_throw (put_vec_self _ _ _) (resizeV_fault E (a := E.dflt) (by simp) h1 rfl (by simpa using h2)), put_put,
          List.take_replicate, Nat.min_eq_left (by omega)]
        rfl)
    simp only [mstep, hi, Option.isSome_none, Bool.false_eq_true, if_false] at h0
    obtain ⟨r, lost, y', e1, e2⟩ := tcall_ctor (E := E) (t := ⟨.ctorCount i cap n, c⟩) rfl hc hy hcap h0
    have e : mtstep E ⟨.ctorCount i cap n, c⟩ y = some (r, lost, y') := by
      simp only [mtstep, mstep, hi, Option.isSome_none, Bool.false_eq_true, if_false, h0, Option.bind_eq_bind, Option.bind_some]
      exact e1
    simp only [Refined, e]
    exact e2
  | ctorVal i cap n a =>
    have hi : y i = none := by
      cases hi : y i with
      | none => rfl
      | some p => simp [mstep, hi] at h0
    have hcap : cap < 2 ^ 63 := hs
    have hc := create_tick (g := g) (cap := cap) (xs := List.replicate n a) (c := c)
      (body := at' i (assignImplVal n (.val a))) hi
      (fun h1 h2 => by
        simp only [List.length_replicate] at h1 h2
        have h3 := (assignImplVal_frame (v := .val a) (n := n) (rep cap [])).ok (assignImplVal_rep h1) h2
        exact ⟨_, by rw [at'_ok (put_vec_self _ _ _) h3, put_put]⟩)
      (fun h1 => by
        simp only [List.length_replicate] at h1
        refine ⟨c, ?_⟩
        rw [at'_throw (put_vec_self _ _ _) (e := .outOfRange) (v' := (rep cap []).tk c)
          (by simp [assignImplVal, outOfRangeIf, h1]), put_put])
      (fun h1 k hk h2 => by
        subst hk
        simp only [List.length_replicate] at h1 h2
        rw [at'_throw (put_vec_self _ _ _) (assignImplVal_fault h1 h2), put_put,
          List.take_replicate, Nat.min_eq_left (by omega)]
        rfl)
    simp only [mstep, hi, Option.isSome_none, Bool.false_eq_true, if_false] at h0
    obtain ⟨r, lost, y', e1, e2⟩ := tcall_ctor (E := E) (t := ⟨.ctorVal i cap n a, c⟩) rfl hc hy hcap h0
    have e : mtstep E ⟨.ctorVal i cap n a, c⟩ y = some (r, lost, y') := by
      simp only [mtstep, mstep, hi, Option.isSome_none, Bool.false_eq_true, if_false, h0, Option.bind_eq_bind, Option.bind_some]
      exact e1
    simp only [Refined, e]
    exact e2
  | ctorRange i cap xs =>
    have hi : y i = none := by
      cases hi : y i with
      | none => rfl
      | some p => simp [mstep, hi] at h0
    have hcap : cap < 2 ^ 63 := hs
    have hc := create_tick (g := g) (cap := cap) (xs := xs) (c := c)
      (body := at' i (assignImplRange xs)) hi
      (fun h1 h2 => by
        have h3 := (assignImplRange_frame (xs := xs) (rep cap [])).ok (assignImplRange_rep h1) h2
        exact ⟨_, by rw [at'_ok (put_vec_self _ _ _) h3, put_put]⟩)
      (fun h1 => by
        refine ⟨c, ?_⟩
        rw [at'_throw (put_vec_self _ _ _) (e := .outOfRange) (v' := (rep cap []).tk c)
          (by simp [assignImplRange, outOfRangeIf, h1]), put_put])
      (fun h1 k hk h2 => by
        subst hk
        rw [at'_throw (put_vec_self _ _ _) (assignImplRange_fault h1 h2), put_put]
        rfl)
    simp only [mstep, hi, Option.isSome_none, Bool.false_eq_true, if_false] at h0
    obtain ⟨r, lost, y', e1, e2⟩ := tcall_ctor (E := E) (t := ⟨.ctorRange i cap xs, c⟩) rfl hc hy hcap h0
    have e : mtstep E ⟨.ctorRange i cap xs, c⟩ y = some (r, lost, y') := by
      simp only [mtstep, mstep, hi, Option.isSome_none, Bool.false_eq_true, if_false, h0, Option.bind_eq_bind, Option.bind_some]
      exact e1
    simp only [Refined, e]
    exact e2
  | copyCtor i cap j =>
    simp only [mstep, Option.bind_eq_bind, Option.bind_eq_some_iff] at h0
    obtain ⟨⟨capj, ys⟩, hj, h0⟩ := h0
    have hi : y i = none := by
      cases hi : y i with
      | none => rfl
      | some p => simp [hi] at h0
    have hne : i ≠ j := by rintro rfl; simp [hi] at hj
    have hcap : cap < 2 ^ 63 := hs
    have hl := (hy j capj ys hj).1
    have hvj : ∀ c, ((mrep y g).put i (some ((rep cap []).tk c))).vec j = some (rep capj ys) := fun c => by
      rw [put_vec_ne _ _ hne.symm]; exact mrep_vec hj
    have hc := create_tick (g := g) (cap := cap) (xs := ys) (c := c)
      (body := do
          let n ← at' j (do let s ← M.get; pure s.size)
          if n > cap then .raise .outOfRange
          else copyFromLoop i j 0 n) hi
      (fun h1 h2 => by
        have h3 := copyFromLoop_tick hne hl ys.length 0 [] c _ (hvj c) (put_vec_self _ _ _) (by omega) (by simpa using h1) h2
        refine ⟨spend c ys.length, ?_⟩
        simp only [M.bind_apply]
        rw [at'_read (hvj c) (b := ys.length) (by simp)]
        simp only [gt_iff_lt, show ¬ cap < ys.length by omega, if_false, h3, put_put, List.nil_append, List.drop_zero])
      (fun h1 => by
        refine ⟨c, ?_⟩
        simp only [M.bind_apply]
        rw [at'_read (hvj c) (b := ys.length) (by simp)]
        simp [h1])
      (fun h1 k hk h2 => by
        subst hk
        have h3 := copyFromLoop_fault hne hl k 0 ys.length [] _ (hvj _) (put_vec_self _ _ _) (by omega) (by simpa using h1) h2
        simp only [M.bind_apply]
        rw [at'_read (hvj _) (b := ys.length) (by simp)]
        simp only [gt_iff_lt, show ¬ cap < ys.length by omega, if_false, h3, put_put, List.nil_append, List.drop_zero]
        rfl)
    simp only [hi, Option.isSome_none, Bool.false_eq_true, if_false] at h0
    obtain ⟨r, lost, y', e1, e2⟩ := tcall_ctor (E := E) (t := ⟨.copyCtor i cap j, c⟩) rfl hc hy hcap h0
    have e : mtstep E ⟨.copyCtor i cap j, c⟩ y = some (r, lost, y') := by
      simp only [mtstep, mstep, hi, hj, Option.isSome_none, Bool.false_eq_true, if_false, h0, Option.bind_eq_bind, Option.bind_some]
      exact e1
    simp only [Refined, e]
    exact e2
  | copyAssign i j =>
    simp only [mstep, Option.bind_eq_bind, Option.bind_eq_some_iff] at h0
    obtain ⟨⟨cap, xs⟩, hi, ⟨capj, ys⟩, hj, h0⟩ := h0
    simp only at h0
    split at h0
    · rename_i hcc
      subst hcc
      simp only [Option.some.injEq, Prod.mk.injEq] at h0
      obtain ⟨rfl, rfl⟩ := h0
      obtain ⟨hl, hcap⟩ := hy j cap ys hj
      obtain ⟨hl', _⟩ := hy i cap xs hi
      simp only [Refined, mtstep, mstep, hi, hj, Option.bind_eq_bind, Option.bind_some, if_true]
      by_cases hne : i = j
      · subst hne
        simp only [if_true]
        obtain ⟨rfl⟩ : xs = ys := by rw [hi] at hj; simpa using hj
        refine ⟨[], rfl, good_put hy hl hcap, ?_⟩
        simp only [tcall, texec, M.bind_apply, M.modify_apply, arm_mrep hi, copyAssign, if_true, M.pure_apply, disarm_put,
          List.nil_append]
      · simp only [if_neg hne]
        have hvj : ∀ c, ((mrep y g).put i (some ((rep cap []).tk c))).vec j = some (rep cap ys) := fun c => by
          rw [put_vec_ne _ _ (Ne.symm hne)]; exact mrep_vec hj
        have h1 : ∀ c, at' i clear ((mrep y g).put i (some ((rep cap xs).tk c))) =
            .ok () ((mrep y g).put i (some ((rep cap []).tk c))) := fun c => by
          rw [at'_ok (put_vec_self _ _ _) (clear_tick hl' c), put_put]
        have h2 : ∀ c, at' j (do let s ← M.get; pure s.size) ((mrep y g).put i (some ((rep cap []).tk c))) =
            .ok ys.length ((mrep y g).put i (some ((rep cap []).tk c))) := fun c => at'_read (hvj c) (by simp)
        have hm : made cap (.assignRange ys) xs = ys.length := by simp [made, hl]
        rcases fault_cases c (made cap (.assignRange ys) xs) with ⟨h3, h4⟩ | ⟨k, rfl, h4, h5⟩
        · rw [tstep_enough h3]
          simp only [step, if_pos hl, Option.bind_some]
          rw [hm] at h4
          have h5 := copyFromLoop_tick hne hl ys.length 0 [] c _ (hvj c) (put_vec_self _ _ _) (by omega) (by simpa using hl) h4
          refine ⟨[], rfl, good_put hy hl hcap, ?_⟩
          simp only [tcall, texec, M.bind_apply, M.modify_apply, arm_mrep hi, copyAssign, if_neg hne, h1, h2, h5, put_put,
            M.pure_apply, List.nil_append, List.drop_zero, disarm_put]
        · simp only [tstep, h5, step, if_pos hl, Option.bind_eq_bind, Option.bind_some]
          rw [hm] at h4
          have h6 := copyFromLoop_fault hne hl k 0 ys.length [] _ (hvj _) (put_vec_self _ _ _) (by omega) (by simpa using hl) h4
          refine ⟨[], rfl, good_put hy (by simp; omega) hcap, ?_⟩
          simp only [tcall, texec, M.bind_apply, M.modify_apply, arm_mrep hi, copyAssign, if_neg hne, h1, h2, h6, put_put,
            List.nil_append, List.drop_zero, mrep_put, disarm_mrep]
    · simp at h0
  | call i op =>
    simp only [mstep, Option.bind_eq_bind, Option.bind_eq_some_iff] at h0
    obtain ⟨⟨cap, xs⟩, hi, ⟨r', xs'⟩, hst, h0⟩ := h0
    simp only [Option.some.injEq, Prod.mk.injEq] at h0
    obtain ⟨rfl, rfl⟩ := h0
    obtain ⟨hl, hcap⟩ := hy i cap xs hi
    have hs' := hs cap xs hi
    simp only [Refined, mtstep, mstep, hi, hst, Option.bind_eq_bind, Option.bind_some]
    rcases fault_cases c (made cap op xs) with ⟨h3, h4⟩ | ⟨k, rfl, h4, h5⟩
    · rw [tstep_enough h3, hst]
      simp only [Option.bind_some]
      refine ⟨[], rfl, good_put hy (step_length_le hl hst) hcap, ?_⟩
      simp only [tcall, texec, M.bind_apply, M.modify_apply, arm_mrep hi]
      rcases exec_enough E hcap hl hs' hst h4 with h | ⟨e, c', rfl, h⟩
      · simp only [at'_ok (put_vec_self _ _ _) h, put_put, disarm_put, List.nil_append]
      · simp only [at'_throw (put_vec_self _ _ _) h, put_put, disarm_put, List.nil_append]
    · obtain ⟨s', h6, h7⟩ := exec_fault E hcap hl hs' (by rw [hst]; rfl) h4
      cases hts : tstep cap E (some k) op xs with
      | some p =>
        obtain ⟨r, zs⟩ := p
        rw [hts] at h7
        obtain ⟨rfl, rfl, h7⟩ := h7
        simp only [Option.bind_some]
        refine ⟨[], rfl, good_put hy h7 hcap, ?_⟩
        simp only [tcall, texec, M.bind_apply, M.modify_apply, arm_mrep hi, at'_throw (put_vec_self _ _ _) h6, put_put,
          mrep_put, disarm_mrep, List.nil_append]
      | none =>
        rw [hts] at h7
        simp only [Option.bind_none]
        refine ⟨i, op, rfl, disarm ((mrep y g).put i (some s')), ?_, ?_⟩
        · simp only [tcall, texec, M.bind_apply, M.modify_apply, arm_mrep hi, at'_throw (put_vec_self _ _ _) h6, put_put]
        · have : (disarm ((mrep y g).put i (some s'))).vec i = some (s'.tk none) := by simp [disarm]
          have h7 : dtor (s'.tk none) = .ub := h7
          simp only [destruct, M.bind_apply, at', this, h7]

theorem mtrun_mrep (E : Elem α) : ∀ (ts : List (TOp α)) {y y' : Sys α} {g : List (Buf α)} {rs : List (Reply α)} {ls : List α},
    Good y → MTSafeRun E ts y → Spec.mtrun E ts y = some (rs, ls, y') →
    ∃ g', dead g' = ls ∧ Good y' ∧ mtrun E ts (mrep y g) = some (rs, mrep y' (g' ++ g)) := by
  intro ts
  induction ts with
  | nil =>
    intro y y' g rs ls hy _ h
    simp only [Spec.mtrun, Option.some.injEq, Prod.mk.injEq] at h
    obtain ⟨rfl, rfl, rfl⟩ := h
    exact ⟨[], rfl, hy, rfl⟩
  | cons t ts ih =>
    intro y y' g rs ls hy hs h
    simp only [Spec.mtrun, Option.bind_eq_bind, Option.bind_eq_some_iff] at h
    obtain ⟨⟨r, l, y1⟩, h1, ⟨rs1, ls1, y2⟩, h2, h3⟩ := h
    simp only [Option.some.injEq, Prod.mk.injEq] at h3
    obtain ⟨rfl, rfl, rfl⟩ := h3
    simp only [MTSafeRun, h1] at hs
    have hpre : (mstep E t.op y).isSome := by
      cases h : mstep E t.op y with
      | none => simp [mtstep, h] at h1
      | some p => rfl
    have hr := tcall_mrep (g := g) E hy hs.1 hpre
    simp only [Refined, h1] at hr
    obtain ⟨g1, e1, hy1, e2⟩ := hr
    obtain ⟨g2, e3, hy2, e4⟩ := ih (g := g1 ++ g) hy1 hs.2 h2
    refine ⟨g2 ++ g1, by rw [dead_append, e1, e3], hy2, ?_⟩
    simp only [mtrun, e2, Option.bind_eq_bind, Option.bind_some, e4, List.append_assoc]

end Itlib.StaticVector
