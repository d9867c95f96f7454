import Verif.Any.Exec
import Mathlib.Tactic.SplitIfs
import Mathlib.Data.List.Nodup

/-! # Proof engineering for `any` (no property statements here) -/
namespace Itlib.Any
open Itlib
variable {A V : Type} {T : Types V}

/-- object `i` of the model shows what the specification says -/
def Shows (T : Types V) (w : World A V) (i : Nat) : Option (A × Option (Nat × V)) → Prop
  | none => w.any i = none
  | some (a, none) => w.any i = some ⟨a, none⟩
  | some (a, some (ty, v)) => ∃ p, w.any i = some ⟨a, some p⟩ ∧
      w.heap p = some ⟨T.size ty, some (.val ty v), some (T.size ty, T.align ty)⟩ ∧
      ⟨p, a, T.size ty, T.align ty⟩ ∈ w.allocd

structure Inv (T : Types V) (w : World A V) (y : Spec.Sys A V) : Prop where
  vars : w.vars = y.vars
  obj : ∀ i, Shows T w i (y.any i)
  uniq : ∀ i j p a b, w.any i = some ⟨a, some p⟩ → w.any j = some ⟨b, some p⟩ → i = j
  used : ∀ p, w.heap p ≠ none → p < w.next ∧ ∃ i a, w.any i = some ⟨a, some p⟩
  fresh : ∀ e ∈ w.allocd, e.block < w.next
  nodupA : (w.allocd.map Ev.block).Nodup
  nodupF : (w.freed.map Ev.block).Nodup
  sub : ∀ e ∈ w.freed, e ∈ w.allocd
  live : ∀ e ∈ w.allocd, e ∈ w.freed ∨ w.heap e.block ≠ none
  gone : ∀ e ∈ w.freed, w.heap e.block = none

theorem Inv.init : Inv T (World.init : World A V) Spec.init := by
  constructor <;> simp [World.init, Spec.init, Shows]

variable {w : World A V} {y : Spec.Sys A V}

theorem Inv.empty (h : Inv T w y) {i a} (hy : y.any i = some (a, none)) : w.any i = some ⟨a, none⟩ := by
  have := h.obj i; simpa [hy, Shows] using this

theorem Inv.absent (h : Inv T w y) {i} (hy : y.any i = none) : w.any i = none := by
  have := h.obj i; simpa [hy, Shows] using this

theorem Inv.full (h : Inv T w y) {i a ty v} (hy : y.any i = some (a, some (ty, v))) :
    ∃ p, w.any i = some ⟨a, some p⟩ ∧
      w.heap p = some ⟨T.size ty, some (.val ty v), some (T.size ty, T.align ty)⟩ ∧
      ⟨p, a, T.size ty, T.align ty⟩ ∈ w.allocd := by
  have := h.obj i; simpa [hy, Shows] using this

theorem Inv.some_any (h : Inv T w y) {i a c} (hy : y.any i = some (a, c)) : ∃ b, w.any i = some ⟨a, b⟩ := by
  rcases c with _ | ⟨ty, v⟩
  · exact ⟨_, h.empty hy⟩
  · obtain ⟨p, e, _⟩ := h.full hy; exact ⟨_, e⟩

theorem Inv.fresh_heap (h : Inv T w y) : w.heap w.next = none := by
  by_contra hc
  exact absurd (h.used _ hc).1 (Nat.lt_irrefl _)

/-- `Shows` depends only on the object, its block and the log -/
theorem Shows.mono {w' : World A V} {i : Nat} {x} (h : Shows T w i x) (h1 : w'.any i = w.any i)
    (h2 : ∀ a p, w.any i = some ⟨a, some p⟩ → w'.heap p = w.heap p) (h3 : ∀ e ∈ w.allocd, e ∈ w'.allocd) :
    Shows T w' i x := by
  rcases x with _ | ⟨a, _ | ⟨ty, v⟩⟩
  · simpa [Shows, h1] using h
  · simpa [Shows, h1] using h
  · obtain ⟨p, e1, e2, e3⟩ := h
    exact ⟨p, by rw [h1, e1], by rw [h2 a p e1, e2], h3 _ e3⟩

/-- the world after the value of any `i`, in block `p`, was destroyed and its block freed -/
def dropped (w : World A V) (i : Nat) (a : A) (p n al : Nat) : World A V :=
  { w with
    any := Function.update w.any i (some ⟨a, none⟩)
    heap := Function.update w.heap p none
    freed := ⟨p, a, n, al⟩ :: w.freed }

theorem Inv.dropped (h : Inv T w y) {i a ty v p} (hy : y.any i = some (a, some (ty, v)))
    (e1 : w.any i = some ⟨a, some p⟩)
    (e2 : w.heap p = some ⟨T.size ty, some (.val ty v), some (T.size ty, T.align ty)⟩)
    (e3 : ⟨p, a, T.size ty, T.align ty⟩ ∈ w.allocd) :
    Inv T (dropped w i a p (T.size ty) (T.align ty)) (y.put i (some (a, none))) := by
  have hne : ∀ j b q, j ≠ i → w.any j = some ⟨b, some q⟩ → q ≠ p := by
    rintro j b q hj hq rfl
    exact hj (h.uniq _ _ _ _ _ hq e1)
  constructor
  · exact h.vars
  · intro j
    by_cases hj : j = i
    · subst hj; simp [Shows, Spec.Sys.put, Any.dropped]
    · have := h.obj j
      simp only [Spec.Sys.put, Function.update_of_ne hj]
      refine this.mono ?_ ?_ ?_
      · simp [Any.dropped, Function.update_of_ne hj]
      · intro b q hq
        simp [Any.dropped, Function.update_of_ne (hne j b q hj hq)]
      · intro e he; exact he
  · intro j k q b c hj hk
    have hj' : j ≠ i := by rintro rfl; simp [Any.dropped] at hj
    have hk' : k ≠ i := by rintro rfl; simp [Any.dropped] at hk
    simp only [Any.dropped, Function.update_of_ne hj'] at hj
    simp only [Any.dropped, Function.update_of_ne hk'] at hk
    exact h.uniq _ _ _ _ _ hj hk
  · intro q hq
    have hqp : q ≠ p := by rintro rfl; simp [Any.dropped] at hq
    simp only [Any.dropped, Function.update_of_ne hqp] at hq
    obtain ⟨hlt, j, b, hj⟩ := h.used q hq
    have hj' : j ≠ i := by
      rintro rfl
      rw [e1] at hj
      simp only [Option.some.injEq, Obj.mk.injEq] at hj
      exact hqp hj.2.symm
    exact ⟨hlt, j, b, by simp [Any.dropped, Function.update_of_ne hj', hj]⟩
  · exact h.fresh
  · exact h.nodupA
  · simp only [Any.dropped, List.map_cons, List.nodup_cons]
    refine ⟨?_, h.nodupF⟩
    intro hm
    obtain ⟨e, he, hep⟩ := List.mem_map.1 hm
    have := h.gone e he
    rw [hep, e2] at this
    cases this
  · intro e he
    rcases List.mem_cons.1 he with rfl | he
    · exact e3
    · exact h.sub e he
  · intro e he
    by_cases hep : e.block = p
    · left
      have : e = ⟨p, a, T.size ty, T.align ty⟩ := List.inj_on_of_nodup_map h.nodupA he e3 hep
      simp [Any.dropped, this]
    · rcases h.live e he with hl | hl
      · left; exact List.mem_cons_of_mem _ hl
      · right; simpa [Any.dropped, Function.update_of_ne hep] using hl
  · intro e he
    rcases List.mem_cons.1 he with rfl | he
    · simp [Any.dropped]
    · by_cases hep : e.block = p
      · simp [Any.dropped, hep]
      · simpa [Any.dropped, Function.update_of_ne hep] using h.gone e he

theorem update_update_ne {β : Type} (f : Nat → β) {i j : Nat} (h : i ≠ j) (a b : β) :
    Function.update (Function.update f i a) j b = Function.update (Function.update f j b) i a :=
  Function.update_comm h a b f

theorem reset_inv (h : Inv T w y) {i a c} (hy : y.any i = some (a, c)) :
    ∃ w', reset i w = .ok () w' ∧ Inv T w' (y.put i (some (a, none))) ∧ w'.any i = some ⟨a, none⟩ := by
  rcases c with _ | ⟨ty, v⟩
  · refine ⟨w, by simp [reset, rd, h.empty hy], ?_, h.empty hy⟩
    have : y.put i (some (a, none)) = y := by
      cases y; simp only [Spec.Sys.put, Spec.Sys.mk.injEq, and_true]
      rw [← hy]; exact Function.update_eq_self _ _
    rw [this]; exact h
  · obtain ⟨p, e1, e2, e3⟩ := h.full hy
    refine ⟨_, ?_, h.dropped hy e1 e2 e3, by simp [Any.dropped]⟩
    simp [reset, rd, e1, header, rdBlock, e2, destroyBlock, wrBlock, freeBlock, deallocateBytes, setBlock, Any.dropped]

/-- the world after the empty any `i` got a new block -/
def filled (T : Types V) (w : World A V) (i : Nat) (a : A) (ty : Nat) (v : V) : World A V :=
  { w with
    any := Function.update w.any i (some ⟨a, some w.next⟩)
    heap := Function.update w.heap w.next (some ⟨T.size ty, some (.val ty v), some (T.size ty, T.align ty)⟩)
    next := w.next + 1
    allocd := ⟨w.next, a, T.size ty, T.align ty⟩ :: w.allocd }

theorem Inv.filled (h : Inv T w y) {i a} (e : w.any i = some ⟨a, none⟩) (ty : Nat) (v : V) :
    Inv T (filled T w i a ty v) (y.put i (some (a, some (ty, v)))) := by
  have hlt : ∀ j b q, w.any j = some ⟨b, some q⟩ → w.heap q ≠ none := by
    intro j b q hq
    have := h.obj j
    rcases hyj : y.any j with _ | ⟨a', _ | ⟨ty', v'⟩⟩ <;> simp only [hyj, Shows] at this
    · rw [hq] at this; cases this
    · rw [hq] at this; simp at this
    · obtain ⟨p, e1, e2, _⟩ := this
      rw [hq] at e1
      simp only [Option.some.injEq, Obj.mk.injEq] at e1
      rw [e1.2, e2]; simp
  have hne : ∀ j b q, w.any j = some ⟨b, some q⟩ → q ≠ w.next := by
    rintro j b q hq rfl
    exact hlt j b _ hq h.fresh_heap
  constructor
  · exact h.vars
  · intro j
    by_cases hj : j = i
    · subst hj; simp [Shows, Spec.Sys.put, Any.filled]
    · have := h.obj j
      simp only [Spec.Sys.put, Function.update_of_ne hj]
      refine this.mono ?_ ?_ ?_
      · simp [Any.filled, Function.update_of_ne hj]
      · intro b q hq
        simp [Any.filled, Function.update_of_ne (hne j b q hq)]
      · intro e he; exact List.mem_cons_of_mem _ he
  · intro j k q b c hj hk
    by_cases hj' : j = i <;> by_cases hk' : k = i
    · rw [hj', hk']
    · subst hj'
      simp only [Any.filled, Function.update_self, Function.update_of_ne hk', Option.some.injEq, Obj.mk.injEq] at hj hk
      exact absurd hj.2.symm (hne k c q hk)
    · subst hk'
      simp only [Any.filled, Function.update_self, Function.update_of_ne hj', Option.some.injEq, Obj.mk.injEq] at hj hk
      exact absurd hk.2.symm (hne j b q hj)
    · simp only [Any.filled, Function.update_of_ne hj', Function.update_of_ne hk'] at hj hk
      exact h.uniq _ _ _ _ _ hj hk
  · intro q hq
    by_cases hqn : q = w.next
    · subst hqn
      exact ⟨Nat.lt_succ_self _, i, a, by simp [Any.filled]⟩
    · simp only [Any.filled, Function.update_of_ne hqn] at hq
      obtain ⟨hlt', j, b, hj⟩ := h.used q hq
      have hj' : j ≠ i := by rintro rfl; rw [e] at hj; simp at hj
      exact ⟨Nat.lt_succ_of_lt hlt', j, b, by simp [Any.filled, Function.update_of_ne hj', hj]⟩
  · intro e he
    rcases List.mem_cons.1 he with rfl | he
    · exact Nat.lt_succ_self _
    · exact Nat.lt_succ_of_lt (h.fresh e he)
  · simp only [Any.filled, List.map_cons, List.nodup_cons]
    refine ⟨?_, h.nodupA⟩
    intro hm
    obtain ⟨e, he, hep⟩ := List.mem_map.1 hm
    have := h.fresh e he
    omega
  · exact h.nodupF
  · intro e he; exact List.mem_cons_of_mem _ (h.sub e he)
  · intro e he
    rcases List.mem_cons.1 he with rfl | he
    · right; simp [Any.filled]
    · rcases h.live e he with hl | hl
      · left; exact hl
      · right
        have : e.block ≠ w.next := by have := h.fresh e he; omega
        simpa [Any.filled, Function.update_of_ne this] using hl
  · intro e he
    have : e.block ≠ w.next := by have := h.fresh e (h.sub e he); omega
    simpa [Any.filled, Function.update_of_ne this] using h.gone e he

/-- the world after a new block was obtained and given back -/
def bounced (w : World A V) (i : Nat) (a : A) (n al : Nat) : World A V :=
  { w with
    any := Function.update w.any i (some ⟨a, none⟩)
    heap := Function.update w.heap w.next none
    next := w.next + 1
    allocd := ⟨w.next, a, n, al⟩ :: w.allocd
    freed := ⟨w.next, a, n, al⟩ :: w.freed }

theorem Inv.bounced (h : Inv T w y) {i a} (e : w.any i = some ⟨a, none⟩) (n al : Nat) :
    Inv T (bounced w i a n al) y := by
  have ha : Function.update w.any i (some ⟨a, none⟩) = w.any := by rw [← e]; exact Function.update_eq_self _ _
  have hh : Function.update w.heap w.next none = w.heap := by
    rw [← h.fresh_heap]; exact Function.update_eq_self _ _
  unfold Any.bounced
  rw [ha, hh]
  constructor
  · exact h.vars
  · intro j
    exact (h.obj j).mono rfl (fun _ _ _ => rfl) (fun e he => List.mem_cons_of_mem _ he)
  · exact h.uniq
  · intro q hq
    obtain ⟨h1, h2⟩ := h.used q hq
    exact ⟨Nat.lt_succ_of_lt h1, h2⟩
  · intro e he
    rcases List.mem_cons.1 he with rfl | he
    · exact Nat.lt_succ_self _
    · exact Nat.lt_succ_of_lt (h.fresh e he)
  · simp only [List.map_cons, List.nodup_cons]
    refine ⟨?_, h.nodupA⟩
    intro hm
    obtain ⟨e, he, hep⟩ := List.mem_map.1 hm
    have := h.fresh e he
    omega
  · simp only [List.map_cons, List.nodup_cons]
    refine ⟨?_, h.nodupF⟩
    intro hm
    obtain ⟨e, he, hep⟩ := List.mem_map.1 hm
    have := h.fresh e (h.sub e he)
    omega
  · intro e he
    rcases List.mem_cons.1 he with rfl | he
    · exact List.mem_cons_self
    · exact List.mem_cons_of_mem _ (h.sub e he)
  · intro e he
    rcases List.mem_cons.1 he with rfl | he
    · exact .inl List.mem_cons_self
    · exact (h.live e he).imp (List.mem_cons_of_mem _) id
  · intro e he
    rcases List.mem_cons.1 he with rfl | he
    · exact h.fresh_heap
    · exact h.gone e he

/-- an any appears -/
theorem Inv.born (h : Inv T w y) {i} (e : w.any i = none) (a : A) :
    Inv T { w with any := Function.update w.any i (some ⟨a, none⟩) } (y.put i (some (a, none))) := by
  constructor
  · exact h.vars
  · intro j
    by_cases hj : j = i
    · subst hj; simp [Shows, Spec.Sys.put]
    · simp only [Spec.Sys.put, Function.update_of_ne hj]
      exact (h.obj j).mono (by simp [Function.update_of_ne hj]) (fun _ _ _ => rfl) (fun _ he => he)
  · intro j k q b c hj hk
    have hj' : j ≠ i := by rintro rfl; simp at hj
    have hk' : k ≠ i := by rintro rfl; simp at hk
    simp only [Function.update_of_ne hj'] at hj
    simp only [Function.update_of_ne hk'] at hk
    exact h.uniq _ _ _ _ _ hj hk
  · intro q hq
    obtain ⟨h1, j, b, hj⟩ := h.used q hq
    have hj' : j ≠ i := by rintro rfl; rw [e] at hj; cases hj
    exact ⟨h1, j, b, by simp [Function.update_of_ne hj', hj]⟩
  · exact h.fresh
  · exact h.nodupA
  · exact h.nodupF
  · exact h.sub
  · exact h.live
  · exact h.gone

/-- an empty any disappears -/
theorem Inv.died (h : Inv T w y) {i a} (e : w.any i = some ⟨a, none⟩) :
    Inv T { w with any := Function.update w.any i none } (y.put i none) := by
  constructor
  · exact h.vars
  · intro j
    by_cases hj : j = i
    · subst hj; simp [Shows, Spec.Sys.put]
    · simp only [Spec.Sys.put, Function.update_of_ne hj]
      exact (h.obj j).mono (by simp [Function.update_of_ne hj]) (fun _ _ _ => rfl) (fun _ he => he)
  · intro j k q b c hj hk
    have hj' : j ≠ i := by rintro rfl; simp at hj
    have hk' : k ≠ i := by rintro rfl; simp at hk
    simp only [Function.update_of_ne hj'] at hj
    simp only [Function.update_of_ne hk'] at hk
    exact h.uniq _ _ _ _ _ hj hk
  · intro q hq
    obtain ⟨h1, j, b, hj⟩ := h.used q hq
    have hj' : j ≠ i := by rintro rfl; rw [e] at hj; simp at hj
    exact ⟨h1, j, b, by simp [Function.update_of_ne hj', hj]⟩
  · exact h.fresh
  · exact h.nodupA
  · exact h.nodupF
  · exact h.sub
  · exact h.live
  · exact h.gone

/-- the block of `j` goes to the empty any `i` with the same allocator -/
theorem Inv.passed (h : Inv T w y) {i j a c b} (hij : i ≠ j) (e : w.any i = some ⟨a, none⟩)
    (hy : y.any j = some (a, c)) (ej : w.any j = some ⟨a, b⟩) :
    Inv T { w with any := Function.update (Function.update w.any i (some ⟨a, b⟩)) j (some ⟨a, none⟩) }
      ((y.put i (some (a, c))).put j (some (a, none))) := by
  have key : ∀ k d q, Function.update (Function.update w.any i (some ⟨a, b⟩)) j (some ⟨a, none⟩) k = some ⟨d, some q⟩ →
      (k = i ∧ w.any j = some ⟨a, some q⟩) ∨ (k ≠ i ∧ k ≠ j ∧ w.any k = some ⟨d, some q⟩) := by
    intro k d q hk
    by_cases hkj : k = j
    · subst hkj; simp at hk
    · rw [Function.update_of_ne hkj] at hk
      by_cases hki : k = i
      · subst hki
        simp only [Function.update_self, Option.some.injEq, Obj.mk.injEq] at hk
        left; exact ⟨rfl, by rw [ej, hk.2]⟩
      · rw [Function.update_of_ne hki] at hk
        right; exact ⟨hki, hkj, hk⟩
  constructor
  · exact h.vars
  · intro k
    by_cases hkj : k = j
    · subst hkj; simp [Shows, Spec.Sys.put]
    · by_cases hki : k = i
      · subst hki
        have := h.obj j
        rw [hy] at this
        simp only [Spec.Sys.put, Function.update_of_ne hkj, Function.update_self]
        rcases c with _ | ⟨ty, v⟩
        · simp only [Shows] at this ⊢
          rw [Function.update_of_ne hkj, Function.update_self, ← this, ej]
        · obtain ⟨p, e1, e2, e3⟩ := this
          exact ⟨p, by simp only [Function.update_of_ne hkj, Function.update_self]; rw [← e1, ej], e2, e3⟩
      · simp only [Spec.Sys.put, Function.update_of_ne hkj, Function.update_of_ne hki]
        exact (h.obj k).mono (by simp [Function.update_of_ne hkj, Function.update_of_ne hki]) (fun _ _ _ => rfl)
          (fun _ he => he)
  · intro k l q d f hk hl
    rcases key k d q hk with ⟨h0, hk'⟩ | ⟨h1, h2, hk'⟩ <;> rcases key l f q hl with ⟨h0', hl'⟩ | ⟨h3, h4, hl'⟩
    · rw [h0, h0']
    · exact absurd (h.uniq _ _ _ _ _ hk' hl').symm h4
    · exact absurd (h.uniq _ _ _ _ _ hl' hk').symm h2
    · exact h.uniq _ _ _ _ _ hk' hl'
  · intro q hq
    obtain ⟨h1, k, d, hk⟩ := h.used q hq
    by_cases hkj : k = j
    · subst hkj
      rw [ej] at hk
      simp only [Option.some.injEq, Obj.mk.injEq] at hk
      exact ⟨h1, i, a, by simp only [Function.update_of_ne hij, Function.update_self, hk.2]⟩
    · have hki : k ≠ i := by rintro rfl; rw [e] at hk; simp at hk
      exact ⟨h1, k, d, by simp only [Function.update_of_ne hkj, Function.update_of_ne hki, hk]⟩
  · exact h.fresh
  · exact h.nodupA
  · exact h.nodupF
  · exact h.sub
  · exact h.live
  · exact h.gone

/-- the source is empty, so the allocators do not matter -/
theorem Inv.passed_empty (h : Inv T w y) {i j a d} (e : w.any i = some ⟨a, none⟩)
    (hyi : y.any i = some (a, none)) (hyj : y.any j = some (d, none)) (ej : w.any j = some ⟨d, none⟩) :
    Inv T { w with any := Function.update (Function.update w.any i (some ⟨a, none⟩)) j (some ⟨d, none⟩) }
      ((y.put i (some (a, none))).put j (some (d, none))) := by
  have h1 : Function.update w.any i (some ⟨a, none⟩) = w.any := by rw [← e]; exact Function.update_eq_self _ _
  have h2 : Function.update w.any j (some ⟨d, none⟩) = w.any := by rw [← ej]; exact Function.update_eq_self _ _
  have h3 : Function.update y.any i (some (a, none)) = y.any := by rw [← hyi]; exact Function.update_eq_self _ _
  have h4 : Function.update y.any j (some (d, none)) = y.any := by rw [← hyj]; exact Function.update_eq_self _ _
  simp only [Spec.Sys.put, h1, h2, h3, h4]
  exact h

/-- the value of any `i` changes in place -/
theorem Inv.changed (h : Inv T w y) {i a ty v p} (hy : y.any i = some (a, some (ty, v))) (v' : V)
    (e1 : w.any i = some ⟨a, some p⟩)
    (e2 : w.heap p = some ⟨T.size ty, some (.val ty v), some (T.size ty, T.align ty)⟩) :
    Inv T { w with
        heap := Function.update w.heap p (some ⟨T.size ty, some (.val ty v'), some (T.size ty, T.align ty)⟩) }
      (y.put i (some (a, some (ty, v')))) := by
  obtain ⟨p', e1', _, e3⟩ := h.full hy
  obtain rfl : p = p' := by rw [e1] at e1'; simpa using e1'
  constructor
  · exact h.vars
  · intro j
    by_cases hj : j = i
    · subst hj
      simp only [Spec.Sys.put, Function.update_self]
      exact ⟨p, e1, by simp, e3⟩
    · simp only [Spec.Sys.put, Function.update_of_ne hj]
      refine (h.obj j).mono rfl ?_ (fun _ he => he)
      intro b q hq
      have : q ≠ p := by rintro rfl; exact hj (h.uniq _ _ _ _ _ hq e1)
      simp [Function.update_of_ne this]
  · exact h.uniq
  · intro q hq
    by_cases hqp : q = p
    · subst hqp; exact h.used q (by rw [e2]; simp)
    · exact h.used q (by simpa [Function.update_of_ne hqp] using hq)
  · exact h.fresh
  · exact h.nodupA
  · exact h.nodupF
  · exact h.sub
  · intro e he
    rcases h.live e he with hl | hl
    · exact .inl hl
    · right
      by_cases hqp : e.block = p
      · simp [hqp]
      · simpa [Function.update_of_ne hqp] using hl
  · intro e he
    have : e.block ≠ p := by intro hc; have := h.gone e he; rw [hc, e2] at this; cases this
    simpa [Function.update_of_ne this] using h.gone e he

theorem put_put (y : Spec.Sys A V) (i : Nat) (x x') : (y.put i x).put i x' = y.put i x' := by
  simp [Spec.Sys.put]

theorem put_self (y : Spec.Sys A V) (i : Nat) (x) (h : y.any i = x) : y.put i x = y := by
  cases y; subst h; simp [Spec.Sys.put]

/-- storing into an empty any -/
theorem emplaceCore (h : Inv T w y) {i a} (e : w.any i = some ⟨a, none⟩) (ty : Nat) (v : V)
    (f : Fate) (hsz : T.size ty < 2 ^ 32 ∧ T.align ty < 2 ^ 32) :
    match Spec.stored f ty v with
    | (none, c) => ∃ w', emplace T i ty v f w = .ok () w' ∧ Inv T w' (y.put i (some (a, c)))
    | (some x, _) => ∃ w', emplace T i ty v f w = .throw x w' ∧ Inv T w' y ∧ w'.any i = some ⟨a, none⟩ := by
  have h1 : T.size ty % 4294967296 = T.size ty := Nat.mod_eq_of_lt hsz.1
  have h2 : T.align ty % 4294967296 = T.align ty := Nat.mod_eq_of_lt hsz.2
  have hr : reset i w = .ok () w := by simp [reset, rd, e]
  cases f
  · refine ⟨_, ?_, h.filled e ty v⟩
    simp [emplace, hr, rd, e, h1, h2, allocateBytes, setBlock, construct, rdBlock, wrBlock, setHeader, filled]
  · refine ⟨w, ?_, h, e⟩
    simp [emplace, hr, rd, e, allocateBytes]
  · refine ⟨_, ?_, h.bounced e (T.size ty) (T.align ty), by simp [bounced]⟩
    simp [emplace, hr, rd, e, h1, h2, allocateBytes, setBlock, freeBlock, deallocateBytes, bounced]

theorem emplace_reset (i ty : Nat) (v : V) (f : Fate) {w w' : World A V} {a : A} (hr : reset i w = .ok () w')
    (e : w'.any i = some ⟨a, none⟩) : emplace T i ty v f w = emplace T i ty v f w' := by
  have hr' : reset i w' = .ok () w' := by simp [reset, rd, e]
  simp only [emplace, M.bind_apply, hr, hr']

theorem copyFrom_reset (i j : Nat) (f : Fate) {w w' : World A V} {a : A} (hr : reset i w = .ok () w')
    (e : w'.any i = some ⟨a, none⟩) : copyFrom T i j f w = copyFrom T i j f w' := by
  have hr' : reset i w' = .ok () w' := by simp [reset, rd, e]
  simp only [copyFrom, M.bind_apply, hr, hr']

/-- copying another any into an empty one -/
theorem copyCore (h : Inv T w y) {i j a b c} (hij : i ≠ j) (e : w.any i = some ⟨a, none⟩) (hy : y.any i = some (a, none))
    (hj : y.any j = some (b, c)) (f : Fate) :
    match Spec.copied T f c with
    | (none, c) => ∃ w', copyFrom T i j f w = .ok () w' ∧ Inv T w' (y.put i (some (a, c)))
    | (some x, _) => ∃ w', copyFrom T i j f w = .throw x w' ∧ Inv T w' y ∧ w'.any i = some ⟨a, none⟩ := by
  have hr : reset i w = .ok () w := by simp [reset, rd, e]
  have hji : j ≠ i := fun h => hij h.symm
  rcases c with _ | ⟨ty, v⟩
  · refine ⟨w, ?_, ?_⟩
    · simp [copyFrom, hr, rd, h.empty hj]
    · rw [put_self y i _ hy]; exact h
  · obtain ⟨q, e1, e2, e3⟩ := h.full hj
    have hq : q ≠ w.next := by
      rintro rfl
      rw [h.fresh_heap] at e2; cases e2
    by_cases hb : f = .badAlloc
    · simp only [Spec.copied, hb, if_true]
      refine ⟨w, ?_, h, e⟩
      simp [copyFrom, hr, rd, e, e1, header, rdBlock, e2, allocateBytes]
    · by_cases hc : T.copyable ty = false
      · simp only [Spec.copied, hb, hc, if_true, if_false]
        refine ⟨_, ?_, h.bounced e (T.size ty) (T.align ty), by simp [bounced]⟩
        simp [copyFrom, hr, rd, e, e1, header, rdBlock, e2, allocateBytes, hb, setBlock, copyTail, cloneTo, content,
          Function.update_of_ne hq, hc, freeBlock, deallocateBytes, bounced]
      · have hc' : T.copyable ty = true := by simpa using hc
        by_cases ht : f = .throws
        · simp only [Spec.copied, ht, hc', if_true]
          refine ⟨_, ?_, h.bounced e (T.size ty) (T.align ty), by simp [bounced]⟩
          simp [copyFrom, hr, rd, e, e1, header, rdBlock, e2, allocateBytes, setBlock, copyTail, cloneTo, content,
            Function.update_of_ne hq, hc', freeBlock, deallocateBytes, bounced]
        · simp only [Spec.copied, hb, hc', ht, if_false]
          refine ⟨_, ?_, h.filled e ty v⟩
          simp [copyFrom, hr, rd, e, e1, header, rdBlock, e2, allocateBytes, hb, setBlock, copyTail, cloneTo, content,
            Function.update_of_ne hq, hc', ht, construct, wrBlock, setHeader, filled]

end Itlib.Any
