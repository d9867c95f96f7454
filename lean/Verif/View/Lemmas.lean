import Verif.View.Exec
import Verif.Core.Tac
import Mathlib.Data.List.Induction

/-! # Every view class that satisfies some address laws refines the specification -/
namespace Itlib.View
open Itlib M

variable {T R S Mk : Type}

/-- the view's elements are in an array of `n` elements at `a`, and its end is in the address space -/
def Valid (a pitch n : Nat) (v : View) : Prop :=
  0 < v.step ∧ (∀ i, i < v.len → v.off + i * v.step < n) ∧ a + (v.off + v.len * v.step) * pitch < 18446744073709551616

/-- Address laws of a view class, over an array of `n` elements at `a`. -/
structure Laws (I : Impl S Mk) (a pitch n : Nat) (mk : Mk → Nat → Option View) (c : Spec.Cond Mk)
    (Rep : Option View → S → Prop) : Prop where
  ppos : 0 < pitch
  valid : ∀ v s, Rep (some v) s → Valid a pitch n v
  null : Rep none I.null
  ctor : ∀ m v, mk m n = some v → c.ctor m n → Rep (some v) (I.ctor m)
  sub : ∀ v s off cnt, Rep v s → c.sub v off → Rep (v.map fun v => Spec.slice v off (cnt.getD v.len)) (I.sub s off cnt)
  first : c.first → ∃ g, I.first = some g ∧ ∀ v s n, Rep v s → Rep (v.map fun v => Spec.slice v 0 n) (g s n)
  last : ∀ v s n, Rep v s → c.last v n → ∃ g, I.last = some g ∧ Rep (v.map fun v => Spec.slice v (v.len - n) v.len) (g s n)
  removePrefix : ∀ v s n, Rep v s → n ≤ Spec.len v → Rep (v.map fun v => Spec.slice v n v.len) (I.removePrefix s n)
  removeSuffix : ∀ v s n, Rep v s → n ≤ Spec.len v → Rep (v.map fun v => Spec.slice v 0 (v.len - n)) (I.removeSuffix s n)
  elem : ∀ v s i, Rep (some v) s → i < v.len → I.elem s i = a + (v.off + i * v.step) * pitch
  front : ∀ v s, Rep (some v) s → 0 < v.len → I.front s = a + v.off * pitch
  back : ∀ v s, Rep (some v) s → 0 < v.len → I.back s = a + (v.off + (v.len - 1) * v.step) * pitch
  size : ∀ v s, Rep v s → I.size s = Spec.len v
  empty : ∀ v s, Rep v s → I.empty s = (Spec.len v == 0)
  bool : ∀ v s, Rep v s → I.bool s = v.isSome
  begin : ∀ v s, Rep (some v) s → I.begin s = a + v.off * pitch
  fin : ∀ v s, Rep (some v) s → I.fin s = a + (v.off + v.len * v.step) * pitch
  step : ∀ v s, Rep (some v) s → I.step s = v.step * pitch
  fn : ∀ v s, Rep (some v) s → I.fn s = v.fn
  nullRange : ∀ s, Rep none s → I.begin s = I.fin s

structure Rel (a pitch : Nat) (mem0 : Nat → Option T) (Rep : Option View → S → Prop) (y : Spec.State T) (w : World T S) : Prop where
  views : ∀ k, Rep (y.views k) (w.views k)
  mem : Holds w.mem a pitch y.arr
  frame : ∀ p, (∀ i, i < y.arr.length → p ≠ a + i * pitch) → w.mem p = mem0 p

section
variable {I : Impl S Mk} {a pitch : Nat} {mem0 : Nat → Option T} {mk : Mk → Nat → Option View} {c : Spec.Cond Mk}
  {Rep : Option View → S → Prop} {f : Nat → T → R} {put : Nat → T → R → T}

theorem Rel.setView {y : Spec.State T} {w : World T S} (h : Rel a pitch mem0 Rep y w) (k : Nat) {v : Option View} {s : S}
    (hr : Rep v s) : Rel a pitch mem0 Rep (Spec.setView y k v) { w with views := Function.update w.views k s } := by
  refine ⟨?_, h.mem, h.frame⟩
  intro j
  simp only [Spec.setView, Function.update_apply]
  split
  · exact hr
  · exact h.views j

theorem loop_same (w : World T S) (step fuel p : Nat) : loop step fuel p p w = .ok [] w := by
  unfold loop; simp

theorem loopRev_same (w : World T S) (step fuel p : Nat) : loopRev step fuel p p w = .ok [] w := by
  unfold loopRev; simp

theorem loop_eq (w : World T S) (stride : Nat) (l : List T) (p e fuel : Nat)
    (hl : ∀ i (_ : i < l.length), w.mem (p + i * stride) = some l[i]) (he : e = p + l.length * stride) (hs : 0 < stride)
    (hW : e < 18446744073709551616) (hf : l.length ≤ fuel) :
    loop stride fuel p e w = .ok l w := by
  induction l generalizing p fuel with
  | nil =>
    simp only [List.length_nil, Nat.zero_mul, Nat.add_zero] at he
    subst he
    unfold loop
    simp
  | cons x l ih =>
    simp only [List.length_cons] at he hf
    rw [Nat.add_mul, Nat.one_mul] at he
    have hne : p ≠ e := by omega
    cases fuel with
    | zero => omega
    | succ fuel =>
      unfold loop
      have hx := hl 0 (by simp)
      simp only [Nat.zero_mul, Nat.add_zero, List.getElem_cons_zero] at hx
      have hadd : wadd p stride = p + stride := wadd_of_lt (by omega)
      have ih' := ih (p + stride) fuel (fun i hi => by
        have := hl (i + 1) (by simp; omega)
        simp only [List.getElem_cons_succ] at this
        rw [← this]; congr 1; rw [Nat.add_mul]; omega) (by omega) (by omega)
      simp [hne, deref, hx, hadd, ih']

theorem loopRev_eq (w : World T S) (stride : Nat) (l : List T) (p b fuel : Nat)
    (hl : ∀ i (_ : i < l.length), w.mem (b + i * stride) = some l[i]) (he : p = b + l.length * stride) (hs : 0 < stride)
    (hW : p < 18446744073709551616) (hf : l.length ≤ fuel) :
    loopRev stride fuel p b w = .ok l.reverse w := by
  induction l using List.reverseRecOn generalizing p fuel with
  | nil =>
    simp only [List.length_nil, Nat.zero_mul, Nat.add_zero] at he
    subst he
    unfold loopRev
    simp
  | append_singleton l x ih =>
    simp only [List.length_append, List.length_singleton] at he hf
    rw [Nat.add_mul, Nat.one_mul] at he
    have hne : p ≠ b := by omega
    cases fuel with
    | zero => omega
    | succ fuel =>
      unfold loopRev
      have hx := hl l.length (by simp)
      simp at hx
      have hsub : wsub p stride = b + l.length * stride := by rw [wsub_of_le (by omega) hW]; omega
      have ih' := ih (b + l.length * stride) fuel (fun i hi => by
        have := hl i (by simp; omega)
        rw [this, List.getElem_append_left hi]) rfl (by omega) (by omega)
      simp [hne, deref, hx, hsub, ih']

/-- the elements of a view, as list of objects -/
theorem elems_spec {n : Nat} {v : View} {arr : List T} (hv : Valid a pitch n v) (hn : arr.length = n) :
    ∃ l : List T, l.length = v.len ∧ (∀ i (_ : i < l.length), arr[v.off + i * v.step]? = some l[i]) ∧
      Spec.elems f arr (some v) = l.map (f v.fn) := by
  obtain ⟨_, h2, _⟩ := hv
  have key : ∀ m, m ≤ v.len → ∃ l : List T, l.length = m ∧ (∀ i (_ : i < l.length), arr[v.off + i * v.step]? = some l[i]) ∧
      ((List.range m).filterMap fun i => arr[v.off + i * v.step]?.map (f v.fn)) = l.map (f v.fn) := by
    intro m
    induction m with
    | zero => intro _; exact ⟨[], rfl, by simp, by simp⟩
    | succ m ih =>
      intro hm
      obtain ⟨l, hl, h3, h4⟩ := ih (by omega)
      have hlt : v.off + m * v.step < arr.length := by rw [hn]; exact h2 m (by omega)
      refine ⟨l ++ [arr[v.off + m * v.step]], by simp [hl], ?_, ?_⟩
      · intro i hi
        by_cases h : i < l.length
        · rw [List.getElem_append_left h]; exact h3 i h
        · have : i = m := by simp at hi; omega
          subst this
          simp [← hl]
      · rw [List.range_succ, List.filterMap_append, h4]
        simp [List.getElem?_eq_getElem hlt]
  exact key v.len (Nat.le_refl _)

theorem deref_holds {y : Spec.State T} {w : World T S} (h : Holds w.mem a pitch y.arr) {i : Nat} {x : T}
    (hx : y.arr[i]? = some x) : deref (a + i * pitch) w = .ok x w := by
  obtain ⟨hi, rfl⟩ := List.getElem?_eq_some_iff.mp hx
  simp [deref, h i hi]

theorem call_step {n : Nat} (L : Laws I a pitch n mk c Rep) {op : Op R Mk} {y y' : Spec.State T} {w : World T S} {r}
    (h : Rel a pitch mem0 Rep y w) (hn : y.arr.length = n)
    (hs : Spec.Safe c op y) (hc : Spec.call f put mk op y = some (r, y')) :
    ∃ w', call I f put op w = some (r, w') ∧ Rel a pitch mem0 Rep y' w' ∧ y'.arr.length = n := by
  cases op with
  | null k =>
    simp only [Spec.call, Option.some.injEq, Prod.mk.injEq] at hc
    obtain ⟨rfl, rfl⟩ := hc
    exact ⟨_, by simp [call, exec, setView], h.setView k L.null, hn⟩
  | make k m =>
    simp only [Spec.call, Option.map_eq_some_iff, Prod.mk.injEq] at hc
    obtain ⟨v, hv, rfl, rfl⟩ := hc
    rw [hn] at hv
    simp only [Spec.Safe, hn] at hs
    exact ⟨_, by simp [call, exec, setView], h.setView k (L.ctor m v hv hs), hn⟩
  | copy k j =>
    simp only [Spec.call, Option.some.injEq, Prod.mk.injEq] at hc
    obtain ⟨rfl, rfl⟩ := hc
    exact ⟨_, by simp [call, exec, setView], h.setView k (h.views j), hn⟩
  | sub k j off cnt =>
    simp only [Spec.call, Option.some.injEq, Prod.mk.injEq] at hc
    obtain ⟨rfl, rfl⟩ := hc
    exact ⟨_, by simp [call, exec, setView], h.setView k (L.sub _ _ _ _ (h.views j) hs), hn⟩
  | first k j m =>
    simp only [Spec.call, Option.some.injEq, Prod.mk.injEq] at hc
    obtain ⟨rfl, rfl⟩ := hc
    obtain ⟨g, hg, hrep⟩ := L.first hs
    exact ⟨_, by simp [call, exec, setView, hg], h.setView k (hrep _ _ _ (h.views j)), hn⟩
  | last k j m =>
    simp only [Spec.call, Option.some.injEq, Prod.mk.injEq] at hc
    obtain ⟨rfl, rfl⟩ := hc
    obtain ⟨g, hg, hrep⟩ := L.last _ _ _ (h.views j) hs
    exact ⟨_, by simp [call, exec, setView, hg], h.setView k hrep, hn⟩
  | removePrefix k m =>
    simp only [Spec.call] at hc
    split at hc
    · rename_i hle
      simp only [Option.some.injEq, Prod.mk.injEq] at hc
      obtain ⟨rfl, rfl⟩ := hc
      exact ⟨_, by simp [call, exec, setView], h.setView k (L.removePrefix _ _ _ (h.views k) hle), hn⟩
    · simp at hc
  | removeSuffix k m =>
    simp only [Spec.call] at hc
    split at hc
    · rename_i hle
      simp only [Option.some.injEq, Prod.mk.injEq] at hc
      obtain ⟨rfl, rfl⟩ := hc
      exact ⟨_, by simp [call, exec, setView], h.setView k (L.removeSuffix _ _ _ (h.views k) hle), hn⟩
    · simp at hc
  | get k i =>
    simp only [Spec.call, Option.map_eq_some_iff, Prod.mk.injEq] at hc
    obtain ⟨x, hx, rfl, rfl⟩ := hc
    have hv := h.views k
    cases hk : y.views k with
    | none => simp [hk, Spec.look] at hx
    | some v =>
      rw [hk] at hv
      simp only [hk, Spec.look] at hx
      split at hx
      · rename_i hi
        obtain ⟨z, hz, rfl⟩ := Option.map_eq_some_iff.mp hx
        refine ⟨w, ?_, h, hn⟩
        simp [call, exec, L.elem v _ i hv hi, L.fn v _ hv, deref_holds h.mem hz]
      · simp at hx
  | set k i q =>
    simp only [Spec.call] at hc
    have hv := h.views k
    cases hk : y.views k with
    | none => simp [hk] at hc
    | some v =>
      rw [hk] at hv
      simp only [hk] at hc
      split at hc
      · rename_i hi
        obtain ⟨z, hz, he⟩ := Option.map_eq_some_iff.mp hc
        simp only [Prod.mk.injEq] at he
        obtain ⟨rfl, rfl⟩ := he
        obtain ⟨hlt, hz'⟩ := List.getElem?_eq_some_iff.mp hz
        have hmem := h.mem _ hlt
        refine ⟨⟨Function.update w.mem (a + (v.off + i * v.step) * pitch) (some (put v.fn z q)), w.views⟩, ?_, ⟨h.views, ?_, ?_⟩, by simpa using hn⟩
        · simp [call, exec, L.elem v _ i hv hi, L.fn v _ hv, deref_holds h.mem hz, store, hmem]
        · intro j hj
          simp only [List.length_set] at hj
          simp only [Function.update_apply, List.getElem_set]
          by_cases hji : v.off + i * v.step = j
          · simp [hji]
          · have : a + j * pitch ≠ a + (v.off + i * v.step) * pitch := by
              intro he
              have := Nat.eq_of_mul_eq_mul_right L.ppos (Nat.add_left_cancel he)
              exact hji this.symm
            rw [if_neg this, if_neg hji]; exact h.mem j hj
        · intro p hp
          simp only [List.length_set] at hp
          simp only [Function.update_apply]
          rw [if_neg (hp _ hlt)]
          exact h.frame p hp
      · simp at hc
  | front k =>
    simp only [Spec.call, Option.map_eq_some_iff, Prod.mk.injEq] at hc
    obtain ⟨x, hx, rfl, rfl⟩ := hc
    have hv := h.views k
    cases hk : y.views k with
    | none => simp [hk, Spec.look] at hx
    | some v =>
      rw [hk] at hv
      simp only [hk, Spec.look] at hx
      split at hx
      · rename_i hi
        obtain ⟨z, hz, rfl⟩ := Option.map_eq_some_iff.mp hx
        refine ⟨w, ?_, h, hn⟩
        simp only [Nat.zero_mul, Nat.add_zero] at hz
        simp [call, exec, L.front v _ hv hi, L.fn v _ hv, deref_holds h.mem hz]
      · simp at hx
  | back k =>
    simp only [Spec.call, Option.map_eq_some_iff, Prod.mk.injEq] at hc
    obtain ⟨x, hx, rfl, rfl⟩ := hc
    have hv := h.views k
    cases hk : y.views k with
    | none => simp [hk, Spec.look] at hx
    | some v =>
      rw [hk] at hv
      simp only [hk, Spec.look, Spec.len] at hx
      split at hx
      · rename_i hi
        obtain ⟨z, hz, rfl⟩ := Option.map_eq_some_iff.mp hx
        refine ⟨w, ?_, h, hn⟩
        simp [call, exec, L.back v _ hv (by omega), L.fn v _ hv, deref_holds h.mem hz]
      · simp at hx
  | size k =>
    simp only [Spec.call, Option.some.injEq, Prod.mk.injEq] at hc
    obtain ⟨rfl, rfl⟩ := hc
    exact ⟨w, by simp [call, exec, L.size _ _ (h.views k)], h, hn⟩
  | empty k =>
    simp only [Spec.call, Option.some.injEq, Prod.mk.injEq] at hc
    obtain ⟨rfl, rfl⟩ := hc
    exact ⟨w, by simp [call, exec, L.empty _ _ (h.views k)], h, hn⟩
  | bool k =>
    simp only [Spec.call, Option.some.injEq, Prod.mk.injEq] at hc
    obtain ⟨rfl, rfl⟩ := hc
    exact ⟨w, by simp [call, exec, L.bool _ _ (h.views k)], h, hn⟩
  | toList k =>
    simp only [Spec.call, Option.some.injEq, Prod.mk.injEq] at hc
    obtain ⟨rfl, rfl⟩ := hc
    refine ⟨w, ?_, h, hn⟩
    have hv := h.views k
    cases hk : y.views k with
    | none =>
      rw [hk] at hv
      have := L.nullRange _ hv
      unfold call exec
      simp only [bind_apply, M.get_apply, this, loop_same, pure_apply, List.map_nil]
      rfl
    | some v =>
      rw [hk] at hv
      obtain ⟨l, hl, hget, he⟩ := elems_spec (f := f) (L.valid _ _ hv) hn
      have hlen : v.len < 18446744073709551616 := by
        obtain ⟨h1, h2, h3⟩ := L.valid _ _ hv
        have : v.len * 1 ≤ v.len * v.step := Nat.mul_le_mul_left _ h1
        have : (v.off + v.len * v.step) * 1 ≤ (v.off + v.len * v.step) * pitch := Nat.mul_le_mul_left _ L.ppos
        omega
      have hloop := loop_eq w (v.step * pitch) l (a + v.off * pitch) (a + (v.off + v.len * v.step) * pitch) 18446744073709551616
        (fun i hi => by
          have := hget i hi
          obtain ⟨hlt, e⟩ := List.getElem?_eq_some_iff.mp this
          rw [← e, ← h.mem _ hlt, Nat.add_mul, Nat.mul_assoc, Nat.add_assoc])
        (by rw [hl, Nat.add_mul, Nat.mul_assoc, Nat.add_assoc]) (Nat.mul_pos (L.valid _ _ hv).1 L.ppos) (L.valid _ _ hv).2.2
        (by omega)
      unfold call exec
      simp only [bind_apply, M.get_apply, L.begin v _ hv, L.fin v _ hv, L.step v _ hv, L.fn v _ hv, hloop, pure_apply, he]
  | toListRev k =>
    simp only [Spec.call, Option.some.injEq, Prod.mk.injEq] at hc
    obtain ⟨rfl, rfl⟩ := hc
    refine ⟨w, ?_, h, hn⟩
    have hv := h.views k
    cases hk : y.views k with
    | none =>
      rw [hk] at hv
      have := L.nullRange _ hv
      unfold call exec
      simp only [bind_apply, M.get_apply, this, loopRev_same, pure_apply, List.map_nil]
      rfl
    | some v =>
      rw [hk] at hv
      obtain ⟨l, hl, hget, he⟩ := elems_spec (f := f) (L.valid _ _ hv) hn
      have hlen : v.len < 18446744073709551616 := by
        obtain ⟨h1, h2, h3⟩ := L.valid _ _ hv
        have : v.len * 1 ≤ v.len * v.step := Nat.mul_le_mul_left _ h1
        have : (v.off + v.len * v.step) * 1 ≤ (v.off + v.len * v.step) * pitch := Nat.mul_le_mul_left _ L.ppos
        omega
      have hloop := loopRev_eq w (v.step * pitch) l (a + (v.off + v.len * v.step) * pitch) (a + v.off * pitch) 18446744073709551616
        (fun i hi => by
          have := hget i hi
          obtain ⟨hlt, e⟩ := List.getElem?_eq_some_iff.mp this
          rw [← e, ← h.mem _ hlt, Nat.add_mul, Nat.mul_assoc, Nat.add_assoc])
        (by rw [hl, Nat.add_mul, Nat.mul_assoc, Nat.add_assoc]) (Nat.mul_pos (L.valid _ _ hv).1 L.ppos) (L.valid _ _ hv).2.2
        (by omega)
      unfold call exec
      simp only [bind_apply, M.get_apply, L.begin v _ hv, L.fin v _ hv, L.step v _ hv, L.fn v _ hv, hloop, pure_apply, he, List.map_reverse]

theorem run_rel {n : Nat} (L : Laws I a pitch n mk c Rep) {ops : List (Op R Mk)} {y y' : Spec.State T} {w : World T S} {rs}
    (h : Rel a pitch mem0 Rep y w) (hn : y.arr.length = n)
    (hs : Spec.SafeRun c f put mk ops y) (hc : Spec.run f put mk ops y = some (rs, y')) :
    ∃ w', run I f put ops w = some (rs, w') ∧ Rel a pitch mem0 Rep y' w' ∧ y'.arr.length = n := by
  induction ops generalizing y w rs with
  | nil =>
    simp only [Spec.run, Option.some.injEq, Prod.mk.injEq] at hc
    obtain ⟨rfl, rfl⟩ := hc
    exact ⟨w, rfl, h, hn⟩
  | cons op ops ih =>
    simp only [Spec.run, Option.bind_eq_bind, Option.bind_eq_some_iff, Option.some.injEq] at hc
    obtain ⟨⟨r, y1⟩, h1, ⟨rs', y2⟩, h2, h3⟩ := hc
    simp only [Prod.mk.injEq] at h3
    obtain ⟨rfl, rfl⟩ := h3
    obtain ⟨w1, e1, hr1, hn1⟩ := call_step L h hn hs.1 h1
    obtain ⟨w2, e2, hr2, hn2⟩ := ih hr1 hn1 (hs.2 _ _ h1) h2
    exact ⟨w2, by simp [run, e1, e2], hr2, hn2⟩

theorem run_append (x z : List (Op R Mk)) (w : World T S) :
    run I f put (x ++ z) w = (run I f put x w).bind fun p => (run I f put z p.2).map fun q => (p.1 ++ q.1, q.2) := by
  induction x generalizing w with
  | nil => simp [run]
  | cons op x ih =>
    simp only [List.cons_append, run, Option.bind_eq_bind]
    cases call I f put op w with
    | none => simp
    | some p =>
      simp only [Option.bind_some, ih]
      cases run I f put x p.2 with
      | none => simp
      | some q =>
        simp only [Option.bind_some]
        cases run I f put z q.2 <;> simp

theorem start_rel {n : Nat} (L : Laws I a pitch n mk c Rep) {arr : List T} (hm : Holds mem0 a pitch arr) :
    Rel a pitch mem0 Rep (Spec.start arr) (start I mem0) :=
  ⟨fun _ => L.null, hm, fun _ _ => rfl⟩

end
end Itlib.View
