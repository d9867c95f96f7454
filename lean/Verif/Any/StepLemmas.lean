import Verif.Any.Lemmas

/-! # Every call on `any` does what the specification says (proof engineering) -/
namespace Itlib.Any
open Itlib
variable {A V : Type} {T : Types V}

theorem call_refines {op : Op A V} {w : World A V} {y y' : Spec.Sys A V} {r : Reply A V} (h : Inv T w y)
    (hsafe : Spec.Safe T op y) (hs : Spec.step T op y = some (r, y')) :
    ∃ w', call T op w = some (r, w') ∧ Inv T w' y' := by
  cases op with
  | ctorEmpty i a =>
    rcases hi : y.any i with _ | c <;> simp [Spec.step, hi] at hs
    obtain ⟨rfl, rfl⟩ := hs
    refine ⟨_, ?_, h.born (h.absent hi) a⟩
    simp [call, exec, ctorEmpty, h.absent hi]
  | ctorVal i a ty v f =>
    rcases hi : y.any i with _ | c <;> simp only [Spec.step, hi] at hs
    · have hb := h.born (h.absent hi) a
      have e : Function.update w.any i (some (⟨a, none⟩ : Obj A)) i = some ⟨a, none⟩ := by simp
      have hc := emplaceCore hb (i := i) (a := a) e ty v f hsafe
      cases hst : Spec.stored f ty v with
      | mk x c =>
        rw [hst] at hc hs
        cases x with
        | none =>
          simp only [Option.some.injEq, Prod.mk.injEq] at hs
          obtain ⟨rfl, rfl⟩ := hs
          obtain ⟨w', e1, e2⟩ := hc
          refine ⟨w', ?_, by rw [put_put] at e2; exact e2⟩
          simp [call, exec, ctorVal, ctorEmpty, h.absent hi, e1]
        | some x =>
          simp only [Option.some.injEq, Prod.mk.injEq] at hs
          obtain ⟨rfl, rfl⟩ := hs
          obtain ⟨w', e1, e2, e3⟩ := hc
          have hd := e2.died e3
          rw [put_put, put_self y i none hi] at hd
          exact ⟨_, by simp [call, exec, ctorVal, ctorEmpty, h.absent hi, e1, endObj, e3], hd⟩
    · simp at hs
  | copyCtor i j a f =>
    rcases hi : y.any i with _ | c <;> simp only [Spec.step, hi] at hs
    · rcases hj : y.any j with _ | ⟨b, c⟩ <;> simp only [hj] at hs
      · simp at hs
      · have hij : i ≠ j := by rintro rfl; rw [hi] at hj; cases hj
        have hb := h.born (h.absent hi) a
        have e : Function.update w.any i (some (⟨a, none⟩ : Obj A)) i = some ⟨a, none⟩ := by simp
        have hj' : (y.put i (some (a, none))).any j = some (b, c) := by
          simp [Spec.Sys.put, Function.update_of_ne (Ne.symm hij), hj]
        have hc := copyCore hb hij e (by simp [Spec.Sys.put]) hj' f
        cases hst : Spec.copied T f c with
        | mk x c =>
          rw [hst] at hc hs
          cases x with
          | none =>
            simp only [Option.some.injEq, Prod.mk.injEq] at hs
            obtain ⟨rfl, rfl⟩ := hs
            obtain ⟨w', e1, e2⟩ := hc
            refine ⟨w', ?_, by rw [put_put] at e2; exact e2⟩
            simp [call, exec, copyCtor, ctorEmpty, h.absent hi, e1]
          | some x =>
            simp only [Option.some.injEq, Prod.mk.injEq] at hs
            obtain ⟨rfl, rfl⟩ := hs
            obtain ⟨w', e1, e2, e3⟩ := hc
            have hd := e2.died e3
            rw [put_put, put_self y i none hi] at hd
            exact ⟨_, by simp [call, exec, copyCtor, ctorEmpty, h.absent hi, e1, endObj, e3], hd⟩
    · simp at hs
  | moveCtor i j =>
    rcases hi : y.any i with _ | c <;> simp only [Spec.step, hi] at hs
    · rcases hj : y.any j with _ | ⟨b, c⟩ <;> simp only [hj] at hs
      · simp at hs
      · simp only [Option.some.injEq, Prod.mk.injEq] at hs
        obtain ⟨rfl, rfl⟩ := hs
        have hij : i ≠ j := by rintro rfl; rw [hi] at hj; cases hj
        have hb := h.born (h.absent hi) b
        obtain ⟨blk, ej⟩ := h.some_any hj
        have hj' : (y.put i (some (b, none))).any j = some (b, c) := by
          simp [Spec.Sys.put, Function.update_of_ne (Ne.symm hij), hj]
        have := hb.passed (i := i) (j := j) (a := b) (c := c) (b := blk) hij (by simp) hj'
          (by simp [Function.update_of_ne (Ne.symm hij), ej])
        rw [put_put] at this
        refine ⟨_, ?_, this⟩
        simp [call, exec, moveCtor, rd, ej, ctorEmpty, h.absent hi, setBlock, Function.update_of_ne (Ne.symm hij)]
    · simp at hs
  | copyAssign i j f =>
    rcases hi : y.any i with _ | ⟨a, c⟩ <;> simp only [Spec.step, hi] at hs
    · simp at hs
    · rcases hj : y.any j with _ | ⟨b, d⟩ <;> simp only [hj] at hs
      · simp at hs
      · by_cases hij : i = j
        · subst hij
          simp only [if_true, Option.some.injEq, Prod.mk.injEq] at hs
          obtain ⟨rfl, rfl⟩ := hs
          obtain ⟨a', ha'⟩ := hsafe rfl
          refine ⟨w, ?_, h⟩
          simp [call, exec, copyAssign, copyFrom, reset, rd, h.empty ha']
        · simp only [hij, if_false, Option.some.injEq, Prod.mk.injEq] at hs
          obtain ⟨rfl, rfl⟩ := hs
          obtain ⟨w1, r1, i1, e1⟩ := reset_inv h hi
          have hj' : (y.put i (some (a, none))).any j = some (b, d) := by
            simp [Spec.Sys.put, Function.update_of_ne (Ne.symm hij), hj]
          have hc := copyCore i1 hij e1 (by simp [Spec.Sys.put]) hj' f
          have hred := copyFrom_reset (T := T) i j f r1 e1
          cases hst : Spec.copied T f d with
          | mk x c =>
            rw [hst] at hc
            cases x with
            | none =>
              obtain ⟨w', e1, e2⟩ := hc
              refine ⟨w', ?_, by rw [put_put] at e2; exact e2⟩
              simp [call, exec, copyAssign, hred, e1, Spec.reply]
            | some x =>
              obtain ⟨w', e1, e2, e3⟩ := hc
              have hcn : c = none := by
                rcases d with _ | ⟨ty, v⟩
                · simp [Spec.copied] at hst
                · simp only [Spec.copied] at hst
                  split_ifs at hst <;> simp_all
              subst hcn
              refine ⟨w', ?_, e2⟩
              simp [call, exec, copyAssign, hred, e1, Spec.reply]
  | moveAssign i j =>
    rcases hi : y.any i with _ | ⟨a, c⟩ <;> simp only [Spec.step, hi] at hs
    · simp at hs
    · rcases hj : y.any j with _ | ⟨b, d⟩ <;> simp only [hj] at hs
      · simp at hs
      · by_cases hij : i = j
        · subst hij
          simp only [if_true, Option.some.injEq, Prod.mk.injEq] at hs
          obtain ⟨rfl, rfl⟩ := hs
          exact ⟨w, by simp [call, exec, moveAssign], h⟩
        · simp only [hij, if_false, Option.some.injEq, Prod.mk.injEq] at hs
          obtain ⟨rfl, rfl⟩ := hs
          obtain ⟨w1, r1, i1, e1⟩ := reset_inv h hi
          have hj' : (y.put i (some (a, none))).any j = some (b, d) := by
            simp [Spec.Sys.put, Function.update_of_ne (Ne.symm hij), hj]
          rcases d with _ | d
          · have ej := i1.empty hj'
            have := i1.passed_empty (i := i) (j := j) e1 (by simp [Spec.Sys.put]) hj' ej
            rw [put_put] at this
            refine ⟨_, ?_, this⟩
            simp [call, exec, moveAssign, hij, r1, rd, ej, setBlock, e1, Function.update_of_ne (Ne.symm hij)]
          · obtain rfl : a = b := hsafe a b c d hi hj
            obtain ⟨blk, ej⟩ := i1.some_any hj'
            have := i1.passed (i := i) (j := j) hij e1 hj' ej
            rw [put_put] at this
            refine ⟨_, ?_, this⟩
            simp [call, exec, moveAssign, hij, r1, rd, ej, setBlock, e1, Function.update_of_ne (Ne.symm hij)]
  | emplace i ty v f =>
    rcases hi : y.any i with _ | ⟨a, c⟩ <;> simp only [Spec.step, hi] at hs
    · simp at hs
    · simp only [Option.some.injEq, Prod.mk.injEq] at hs
      obtain ⟨rfl, rfl⟩ := hs
      obtain ⟨w1, r1, i1, e1⟩ := reset_inv h hi
      have hc := emplaceCore i1 e1 ty v f hsafe
      have hred := emplace_reset (T := T) i ty v f r1 e1
      cases f <;> simp only [Spec.stored] at hc ⊢
      · obtain ⟨w', e1, e2⟩ := hc
        exact ⟨w', by simp [call, exec, hred, e1, Spec.reply], by rw [put_put] at e2; exact e2⟩
      · obtain ⟨w', e1, e2, e3⟩ := hc
        exact ⟨w', by simp [call, exec, hred, e1, Spec.reply], e2⟩
      · obtain ⟨w', e1, e2, e3⟩ := hc
        exact ⟨w', by simp [call, exec, hred, e1, Spec.reply], e2⟩
  | emplaceOwn i ty => exact hsafe.elim
  | assignVar i k f => exact hsafe.elim
  | reset i =>
    rcases hi : y.any i with _ | ⟨a, c⟩ <;> simp only [Spec.step, hi] at hs
    · simp at hs
    · simp only [Option.some.injEq, Prod.mk.injEq] at hs
      obtain ⟨rfl, rfl⟩ := hs
      obtain ⟨w1, r1, i1, e1⟩ := reset_inv h hi
      exact ⟨w1, by simp [call, exec, r1], i1⟩
  | dtor i =>
    rcases hi : y.any i with _ | ⟨a, c⟩ <;> simp only [Spec.step, hi] at hs
    · simp at hs
    · simp only [Option.some.injEq, Prod.mk.injEq] at hs
      obtain ⟨rfl, rfl⟩ := hs
      obtain ⟨w1, r1, i1, e1⟩ := reset_inv h hi
      have := i1.died e1
      rw [put_put] at this
      exact ⟨_, by simp [call, exec, dtor, r1, endObj, e1], this⟩
  | hasValue i =>
    rcases hi : y.any i with _ | ⟨a, _ | ⟨ty, v⟩⟩ <;> simp [Spec.step, hi] at hs <;> obtain ⟨rfl, rfl⟩ := hs
    · exact ⟨w, by simp [call, exec, hasValue, rd, h.empty hi], h⟩
    · obtain ⟨p, e, _⟩ := h.full hi
      exact ⟨w, by simp [call, exec, hasValue, rd, e], h⟩
  | getAllocator i =>
    rcases hi : y.any i with _ | ⟨a, c⟩ <;> simp [Spec.step, hi] at hs
    obtain ⟨rfl, rfl⟩ := hs
    obtain ⟨b, e⟩ := h.some_any hi
    exact ⟨w, by simp [call, exec, getAllocator, rd, e], h⟩
  | typeOf i =>
    rcases hi : y.any i with _ | ⟨a, _ | ⟨ty, v⟩⟩ <;> simp [Spec.step, hi] at hs <;> obtain ⟨rfl, rfl⟩ := hs
    · exact ⟨w, by simp [call, exec, typeOf, rd, h.empty hi], h⟩
    · obtain ⟨p, e, e2, _⟩ := h.full hi
      exact ⟨w, by simp [call, exec, typeOf, rd, e, content, rdBlock, e2, Content.ty], h⟩
  | castPtr i ty =>
    rcases hi : y.any i with _ | ⟨a, _ | ⟨t, v⟩⟩ <;> simp [Spec.step, hi] at hs <;> obtain ⟨rfl, rfl⟩ := hs
    · exact ⟨w, by simp [call, exec, castPtr, typeOf, rd, h.empty hi], h⟩
    · obtain ⟨p, e, e2, _⟩ := h.full hi
      by_cases ht : t = ty
      · exact ⟨w, by simp [call, exec, castPtr, typeOf, rd, e, content, rdBlock, e2, Content.ty, ht, deref], h⟩
      · exact ⟨w, by simp [call, exec, castPtr, typeOf, rd, e, content, rdBlock, e2, Content.ty, ht], h⟩
  | cast i ty =>
    rcases hi : y.any i with _ | ⟨a, _ | ⟨t, v⟩⟩ <;> simp [Spec.step, hi] at hs <;> obtain ⟨rfl, rfl⟩ := hs
    · exact ⟨w, by simp [call, exec, cast, castPtr, typeOf, rd, h.empty hi], h⟩
    · obtain ⟨p, e, e2, _⟩ := h.full hi
      by_cases ht : t = ty
      · exact ⟨w, by simp [call, exec, cast, castPtr, typeOf, rd, e, content, rdBlock, e2, Content.ty, ht, deref], h⟩
      · exact ⟨w, by simp [call, exec, cast, castPtr, typeOf, rd, e, content, rdBlock, e2, Content.ty, ht], h⟩
  | castMove i ty =>
    rcases hi : y.any i with _ | ⟨a, _ | ⟨t, v⟩⟩ <;> simp only [Spec.step, hi] at hs
    · simp at hs
    · simp only [Option.some.injEq, Prod.mk.injEq] at hs
      obtain ⟨rfl, rfl⟩ := hs
      exact ⟨w, by simp [call, exec, castMove, cast, castPtr, typeOf, rd, h.empty hi], h⟩
    · obtain ⟨p, e, e2, _⟩ := h.full hi
      by_cases ht : t = ty
      · subst ht
        simp only [if_true, Option.some.injEq, Prod.mk.injEq] at hs
        obtain ⟨rfl, rfl⟩ := hs
        refine ⟨_, ?_, h.changed hi (T.mv t v) e e2⟩
        simp [call, exec, castMove, cast, castPtr, typeOf, rd, e, content, rdBlock, e2, Content.ty, deref, store, wrBlock]
      · simp only [ht, if_false, Option.some.injEq, Prod.mk.injEq] at hs
        obtain ⟨rfl, rfl⟩ := hs
        exact ⟨w, by simp [call, exec, castMove, cast, castPtr, typeOf, rd, e, content, rdBlock, e2, Content.ty, ht], h⟩
  | setThrough i ty x =>
    rcases hi : y.any i with _ | ⟨a, _ | ⟨t, v⟩⟩ <;> simp only [Spec.step, hi] at hs
    · simp at hs
    · simp only [Option.some.injEq, Prod.mk.injEq] at hs
      obtain ⟨rfl, rfl⟩ := hs
      exact ⟨w, by simp [call, exec, setThrough, castPtr, typeOf, rd, h.empty hi], h⟩
    · obtain ⟨p, e, e2, _⟩ := h.full hi
      by_cases ht : t = ty
      · subst ht
        simp only [if_true, Option.some.injEq, Prod.mk.injEq] at hs
        obtain ⟨rfl, rfl⟩ := hs
        refine ⟨_, ?_, h.changed hi x e e2⟩
        simp [call, exec, setThrough, castPtr, typeOf, rd, e, content, rdBlock, e2, Content.ty, deref, store, wrBlock]
      · simp only [ht, if_false, Option.some.injEq, Prod.mk.injEq] at hs
        obtain ⟨rfl, rfl⟩ := hs
        exact ⟨w, by simp [call, exec, setThrough, castPtr, typeOf, rd, e, content, rdBlock, e2, Content.ty, ht], h⟩
  | setVar k ty v =>
    simp only [Spec.step, Option.some.injEq, Prod.mk.injEq] at hs
    obtain ⟨rfl, rfl⟩ := hs
    refine ⟨_, rfl, ?_⟩
    exact ⟨by simp [h.vars], fun i => (h.obj i).mono rfl (fun _ _ _ => rfl) (fun _ he => he), h.uniq, h.used, h.fresh,
      h.nodupA, h.nodupF, h.sub, h.live, h.gone⟩
  | endVar k =>
    simp only [Spec.step, Option.some.injEq, Prod.mk.injEq] at hs
    obtain ⟨rfl, rfl⟩ := hs
    refine ⟨_, rfl, ?_⟩
    exact ⟨by simp [h.vars], fun i => (h.obj i).mono rfl (fun _ _ _ => rfl) (fun _ he => he), h.uniq, h.used, h.fresh,
      h.nodupA, h.nodupF, h.sub, h.live, h.gone⟩

theorem run_refines : ∀ {ops : List (Op A V)} {w : World A V} {y y' : Spec.Sys A V} {rs : List (Reply A V)}, Inv T w y →
    Spec.SafeRun T ops y → Spec.run T ops y = some (rs, y') →
    ∃ w', run T ops w = some (rs, w') ∧ Inv T w' y' := by
  intro ops
  induction ops with
  | nil =>
    intro w y y' rs h _ hs
    simp only [Spec.run, Option.some.injEq, Prod.mk.injEq] at hs
    obtain ⟨rfl, rfl⟩ := hs
    exact ⟨w, rfl, h⟩
  | cons op ops ih =>
    intro w y y' rs h hsafe hs
    cases h1 : Spec.step T op y with
    | none => simp [Spec.run, h1] at hs
    | some p =>
      obtain ⟨r, y1⟩ := p
      cases h2 : Spec.run T ops y1 with
      | none => simp [Spec.run, h1, h2] at hs
      | some q =>
        obtain ⟨rs1, y2⟩ := q
        simp only [Spec.run, h1, h2, Option.bind_eq_bind, Option.bind_some, Option.some.injEq, Prod.mk.injEq] at hs
        obtain ⟨rfl, rfl⟩ := hs
        obtain ⟨w1, e1, i1⟩ := call_refines h hsafe.1 h1
        obtain ⟨w2, e2, i2⟩ := ih i1 (hsafe.2 r y1 h1) h2
        exact ⟨w2, by simp [run, e1, e2], i2⟩

theorem run_append (as bs : List (Op A V)) (w : World A V) :
    run T (as ++ bs) w = (run T as w).bind fun p => (run T bs p.2).map fun q => (p.1 ++ q.1, q.2) := by
  induction as generalizing w with
  | nil => cases h : run T bs w <;> simp [run, h]
  | cons a as ih =>
    cases h : call T a w with
    | none => simp [run, h]
    | some p =>
      simp only [List.cons_append, run, h, ih, Option.bind_eq_bind, Option.bind_some]
      cases h2 : run T as p.2 with
      | none => simp
      | some q => cases h3 : run T bs q.2 <;> simp [h3]

end Itlib.Any
