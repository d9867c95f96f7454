import Verif.SmallVector.Props

/-!
# `small_vector` with throwing allocations and element constructors (C47)

`s.atick = some 0`: the next allocation throws `bad_alloc`. `s.ctick = some 0`: the next element construction (by copy or
emplace) throws.
-/
namespace Itlib.SmallVector
open Itlib Spec
variable {α : Type}

theorem destroyRange_dead : ∀ (k pos q : Nat) (b : Buf α), pos ≤ q → q < pos + k → b.cells q = .raw →
    b.destroyRange pos k = none := by
  intro k
  induction k with
  | zero => intro pos q b h1 h2 _; omega
  | succ k ih =>
    intro pos q b h1 h2 hq
    simp only [Buf.destroyRange, Option.bind_eq_bind]
    by_cases e : pos = q
    · subst e
      simp only [Buf.destroy, hq]
      split <;> rfl
    · cases hd : b.destroy pos with
      | none => rfl
      | some b' =>
        simp only [Option.bind_some]
        refine ih (pos + 1) q b' (by omega) (by omega) ?_
        simp only [Buf.destroy] at hd
        split at hd
        · split at hd
          · simp at hd
          · simp only [Option.some.injEq] at hd
            subst hd
            simp [Function.update_apply, Ne.symm e, hq]
        · simp at hd

/-- `choose_data` when the allocation fails: nothing has changed -/
theorem chooseData_fail {C : Ctx α} {h : Home} {k n nx d : Nat} {b : Buf α} {g : List (Buf α)} (hat : C.at' = some 0)
    (hd : h.cap C.P.N < d) : chooseData C.P d (stB C h k b n nx g) = .throw .badAlloc (stB C h k b n nx g) := by
  cases h with
  | stat =>
    simp only [Home.cap] at hd
    simp [chooseData, hd, allocate, hat]
  | dyn c =>
    simp only [Home.cap] at hd
    simp [chooseData, hd, allocate, hat, Home.cap]

/-- the calls that may allocate for a greater size, and the size for which they need storage -/
def Needs (xs : List α) : Op α → Nat → Prop
  | .pushBack _, n | .emplaceBack _, n => n = xs.length + 1
  | .insert pos _, n => 0 ≤ pos ∧ pos ≤ xs.length ∧ n = xs.length + 1
  | .insertN pos m _, n => 0 ≤ pos ∧ pos ≤ xs.length ∧ n = xs.length + m
  | .insertRange pos ys, n => 0 ≤ pos ∧ pos ≤ xs.length ∧ n = xs.length + ys.length
  | .reserve m, n | .resize m, n | .resizeV m _, n => n = m
  | _, _ => False

/-- **C47, small_vector, failing allocation.** In every reachable state: if `push_back`, `emplace_back`, `insert`,
`emplace`, `reserve` or `resize` needs more room than the capacity and the allocation throws, that exception comes out
and the vector and the heap are exactly as before. -/
theorem C47_small_vector_alloc_failure_strong (P : Params) (E : Elem α) (hN : 0 < P.N) (hR : P.R ≤ P.N + 1) (h : Home)
    (xs : List α) (s : St α) (hr : Reaches P E h xs s) (op : Op α) (n : Nat) (hop : Needs xs op n) (hc : s.v.cap < n) :
    call P E op { s with atick := some 0 } = some (.exc .badAlloc, { s with atick := some 0 }) := by
  obtain ⟨C, k, nx, g, rfl, hT, rfl, hG⟩ := reaches_st hN hR hr
  simp only [st, stB_cap] at hc
  have e0 : ({ st C h k xs nx g with atick := some 0 } : St α) = st { C with at' := some 0 } h k xs nx g := rfl
  rw [e0]
  generalize hD : ({ C with at' := some 0 } : Ctx α) = D
  have hP : C.P = D.P := by subst hD; rfl
  have hDa : D.at' = some 0 := by subst hD; rfl
  rw [hP] at hc ⊢
  have hg : ∀ (pos : Int) (num : Nat), 0 ≤ pos → pos ≤ xs.length → h.cap D.P.N < xs.length + num →
      growAt D.P E pos num (st D h k xs nx g) = .throw .badAlloc (st D h k xs nx g) := by
    intro pos num h1 h2 h3
    simp only [growAt, M.bind_apply, size_st]
    rw [if_neg (by omega)]
    simp only [st, M.bind_apply, chooseData_fail hDa h3]
  have hres : ∀ m, h.cap D.P.N < m → reserve D.P E m (st D h k xs nx g) = .throw .badAlloc (st D h k xs nx g) := by
    intro m hm
    simp only [reserve, M.bind_apply, M.get_apply]
    rw [if_neg (by simp only [st, stB_cap]; omega)]
    simp only [st, M.bind_apply, chooseData_fail hDa hm]
  cases op with
  | pushBack v =>
    simp only [Needs] at hop; subst hop
    simp only [call, exec, pushBack, M.bind_apply, bindRef_st, size_st]
    rw [hg _ _ (by omega) (by omega) hc]
  | emplaceBack v =>
    simp only [Needs] at hop; subst hop
    simp only [call, exec, emplaceBack, M.bind_apply, bindRef_st, size_st]
    rw [hg _ _ (by omega) (by omega) hc]
  | insert pos v =>
    simp only [Needs] at hop; obtain ⟨h1, h2, rfl⟩ := hop
    simp only [call, exec, insert, M.bind_apply, bindRef_st]
    rw [hg _ _ h1 h2 hc]
  | insertN pos m v =>
    simp only [Needs] at hop; obtain ⟨h1, h2, rfl⟩ := hop
    simp only [call, exec, insertN, M.bind_apply, bindRef_st]
    rw [hg _ _ h1 h2 hc]
  | insertRange pos ys =>
    simp only [Needs] at hop; obtain ⟨h1, h2, rfl⟩ := hop
    simp only [call, exec, insertRange, M.bind_apply]
    rw [hg _ _ h1 h2 hc]
  | reserve m =>
    simp only [Needs] at hop; subst hop
    simp only [call, exec, M.bind_apply, hres _ hc]
  | resize m =>
    simp only [Needs] at hop; subst hop
    simp only [call, exec, resizeV, M.bind_apply, bindRef_st, hres _ hc]
  | resizeV m v =>
    simp only [Needs] at hop; subst hop
    simp only [call, exec, resizeV, M.bind_apply, bindRef_st, hres _ hc]
  | _ => exact hop.elim

/-- `small_vector<int, 2> v{1, 2}; v.push_back(3);` with a failing allocation -/
example : ∃ s, Reaches ⟨2, 0⟩ ⟨id, 0⟩ .stat ([1, 2] : List Nat) s ∧ Needs [1, 2] (.pushBack (.val 3)) 3 ∧ s.v.cap < 3 :=
  ⟨_, ⟨[.assignRange [1, 2]], [.done], rfl, by simp [SafeRun, Safe, step, choose], rfl⟩, rfl, by decide⟩

/-- **C47, small_vector, failing `shrink_to_fit`.** If the allocation throws, the exception comes out and nothing has
changed. -/
theorem C47_small_vector_shrink_failure_strong (P : Params) (E : Elem α) (hN : 0 < P.N) (hR : P.R ≤ P.N + 1) (c : Nat)
    (xs : List α) (s : St α) (hr : Reaches P E (.dyn c) xs s) (h1 : P.N ≤ xs.length) (h2 : xs.length < c) :
    call P E .shrinkToFit { s with atick := some 0 } = some (.exc .badAlloc, { s with atick := some 0 }) := by
  obtain ⟨C, k, nx, g, rfl, hT, rfl, hG⟩ := reaches_st hN hR hr
  have e0 : ({ st C (.dyn c) k xs nx g with atick := some 0 } : St α) = st { C with at' := some 0 } (.dyn c) k xs nx g := rfl
  rw [e0]
  simp only [call, exec, shrinkToFit, M.bind_apply, size_st, M.get_apply]
  rw [if_neg (by simp only [st, stB_cap, Home.cap]; omega), if_neg (by simp [st]), if_neg (by omega)]
  simp [allocate, st]

/-- Defect: a throwing element constructor in `push_back` (also `emplace_back`; `insert` and `resize` likewise) leaves a
vector that counts an element which does not exist; its destructor then destroys that non-object. -/
theorem C47_defect_small_vector_push_back_throws (P : Params) (E : Elem α) (hN : 0 < P.N) (hR : P.R ≤ P.N + 1) (h : Home)
    (xs : List α) (s : St α) (hr : Reaches P E h xs s) (a : α) :
    ∃ s', call P E (.pushBack (.val a)) { s with ctick := some 0 } = some (.exc .element, s') ∧
      size s' = .ok (xs.length + 1) s' ∧ dtorBody s' = .ub := by
  obtain ⟨C, k, nx, g, rfl, hT, rfl, hG⟩ := reaches_st hN hR hr
  have e0 : ({ st C h k xs nx g with ctick := some 0 } : St α) = st { C with ct := some 0 } h k xs nx g := rfl
  rw [e0]
  generalize hD : ({ C with ct := some 0 } : Ctx α) = D
  have hDc : D.ct = some 0 := by subst hD; rfl
  have hP : C.P = D.P := by subst hD; rfl
  have hw : WF D h k nx := by subst hD; exact ⟨hG.wf.free, hG.wf.own⟩
  have hNR : 0 < D.P.N ∧ D.P.R ≤ D.P.N + 1 ∧ D.at' = none ∧ xs.length ≤ h.cap D.P.N := by
    subst hD; exact ⟨hG.N, hG.R, hT.2, hG.len⟩
  obtain ⟨k', nx', g', h1, h2, h3, _⟩ := growAt_st E (num := 1) hNR.1 hNR.2.1 hNR.2.2.1 hw hG.raw (Nat.le_refl xs.length)
    (Or.inl (by omega)) hNR.2.2.2
  rw [hP]
  refine ⟨stB D (choose D.P.N D.P.R (xs.length + 1) h) k'
    (StaticVector.gap ((choose D.P.N D.P.R (xs.length + 1) h).cap D.P.N) xs xs.length 1) (xs.length + 1) nx' g', ?_, ?_, ?_⟩
  · simp only [call, exec, pushBack, M.bind_apply, bindRef_st, size_st, h1, refOf, loadRef, M.pure_apply, emplaceAt, stB_ctick, hDc]
  · exact size_stB ..
  · simp only [dtorBody, M.bind_apply, destroyAll, size_stB, M.get_apply, stB_bgn]
    rw [onLoc_stB_none]
    refine destroyRange_dead _ _ xs.length _ (by omega) (by omega) ?_
    simp [StaticVector.gap]

/-- Defect: a failing allocation in `assign` (and copy assignment, which does the same) leaves a vector that counts the
elements it has already destroyed; its destructor destroys them again. -/
theorem C47_defect_small_vector_assign_alloc (P : Params) (E : Elem α) (hN : 0 < P.N) (hR : P.R ≤ P.N + 1) (h : Home)
    (xs ys : List α) (s : St α) (hr : Reaches P E h xs s) (hx : 0 < xs.length) (hc : s.v.cap < ys.length) :
    ∃ s', call P E (.assignRange ys) { s with atick := some 0 } = some (.exc .badAlloc, s') ∧
      size s' = .ok xs.length s' ∧ dtorBody s' = .ub := by
  obtain ⟨C, k, nx, g, rfl, hT, rfl, hG⟩ := reaches_st hN hR hr
  simp only [st, stB_cap] at hc
  have e0 : ({ st C h k xs nx g with atick := some 0 } : St α) = st { C with at' := some 0 } h k xs nx g := rfl
  rw [e0]
  have hl := hG.len
  generalize hD : ({ C with at' := some 0 } : Ctx α) = D
  have hP : C.P = D.P := by subst hD; rfl
  have hDa : D.at' = some 0 := by subst hD; rfl
  rw [hP] at hc hl ⊢
  refine ⟨stB D h k (Buf.fresh (h.cap D.P.N)) xs.length nx g, ?_, size_stB .., ?_⟩
  · simp only [call, exec, assignRange, M.bind_apply, destroyAll_st hl, assignCopy, chooseData_fail hDa hc]
  · simp only [dtorBody, M.bind_apply, destroyAll, size_stB, M.get_apply, stB_bgn]
    rw [onLoc_stB_none]
    exact destroyRange_dead _ _ 0 _ (by omega) (by omega) rfl

/-- Defect: a throwing element constructor in `assign` with a growing size leaves `m_begin` and `m_end` in different
buffers: the destructor (here: its first step, `size()`) is undefined. -/
theorem C47_defect_small_vector_assign_throws (P : Params) (E : Elem α) (hN : 0 < P.N) (hR : P.R ≤ P.N + 1) (h : Home)
    (xs : List α) (y : α) (ys : List α) (s : St α) (hr : Reaches P E h xs s) (hc : s.v.cap < ys.length + 1) :
    ∃ s', call P E (.assignRange (y :: ys)) { s with ctick := some 0 } = some (.exc .element, s') ∧ dtorBody s' = .ub := by
  obtain ⟨C, k, nx, g, rfl, hT, rfl, hG⟩ := reaches_st hN hR hr
  simp only [st, stB_cap] at hc
  have e0 : ({ st C h k xs nx g with ctick := some 0 } : St α) = st { C with ct := some 0 } h k xs nx g := rfl
  rw [e0]
  have hl := hG.len
  generalize hD : ({ C with ct := some 0 } : Ctx α) = D
  have hP : C.P = D.P := by subst hD; rfl
  have hDc : D.ct = some 0 := by subst hD; rfl
  have hDa : D.at' = none := by subst hD; exact hT.2
  have hw : WF D h k nx := by subst hD; exact ⟨hG.wf.free, hG.wf.own⟩
  rw [hP] at hc hl ⊢
  have hm : moves D.P.N D.P.R (ys.length + 1) h := by
    cases h <;> simp only [moves, Home.cap] at hc ⊢ <;> omega
  obtain ⟨k', nx', hch, hdl, _⟩ := chooseData_move (b := Buf.fresh (h.cap D.P.N)) (n := xs.length) (g := g)
    (hP ▸ hN) hDa hw hm
  refine ⟨stB2 D h k (Buf.fresh (h.cap D.P.N)) (loc D.i k' (choose D.P.N D.P.R (ys.length + 1) h)) 0
    (choose D.P.N D.P.R (ys.length + 1) h) k' (Buf.fresh ((choose D.P.N D.P.R (ys.length + 1) h).cap D.P.N)) nx' g, ?_, ?_⟩
  · simp only [call, exec, assignRange, M.bind_apply, destroyAll_st hl, assignCopy, List.length_cons, hch, setEnd_stB2, copyEnd,
      M.get_apply, emplaceAt, stB2_ctick, hDc]
  · simp only [dtorBody, M.bind_apply, destroyAll, size, M.get_apply, stB2_bgn, stB2_endp, Ne.symm hdl, if_false, M.undef_apply]

end Itlib.SmallVector
