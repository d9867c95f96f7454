import Verif.SmallVector.MachineLemmas
import Verif.SmallVector.Throwing

/-!
# C71: `small_vector` and the range of `size_t`

As long as less than 2^64 elements are asked for by calls on vectors in their static buffers, and not more than a third of that
by calls on vectors on the heap, programs behave as in C58, where numbers have no bound. Beyond that there are requests that fail properly and
defects: a loop that never ends, and a size that wraps around. (Which requests the allocator refuses is part of the throw points: `a`.)
-/
namespace Itlib.SmallVector
open Itlib Spec
variable {α : Type} {P : Params} {E : Elem α}

theorem wmtrun_eq (hN : 0 < P.N) (hR : P.R ≤ P.N + 1) : ∀ (ts : List (TOp α)) {y y' : Sys α} {blk : Nat → Nat} {m : Mem α} {rs : List (Reply α)},
    MRep P (fun _ => none) y blk m → MTSafeRun P.N P.R E ts y → Spec.mtrun P.N P.R E ts y = some (rs, y') → ModestRun P.N P.R E ts y →
    W.mtrun P E ts m = mtrun P E ts m
  | [], _, _, _, _, _, _, _, _, _ => rfl
  | t :: ts, y, y', blk, m, rs, hM, hs, h, hm => by
    simp only [Spec.mtrun, Option.bind_eq_bind, Option.bind_eq_some_iff] at h
    obtain ⟨⟨r, y1⟩, h1, ⟨rs1, y2⟩, h2, h3⟩ := h
    obtain ⟨hs1, hs2⟩ := hs
    rw [h1] at hs2
    obtain ⟨r0, hr0⟩ : ∃ r0, mstep P.N P.R E t.op y = some r0 := by
      cases e : mstep P.N P.R E t.op y with
      | none => simp [mtstep, e] at h1
      | some r0 => exact ⟨r0, rfl⟩
    have e1 := tcall_mrep E hN hR hM hs1 hr0
    rw [h1] at e1
    obtain ⟨m1, blk1, e1, e2⟩ := e1
    have e3 := wmtrun_eq hN hR ts e2 hs2 h2 (hm.2 r y1 h1)
    simp only [W.mtrun, mtrun, W.tcall_eq hN hM hm.1, e1, Option.bind_eq_bind, Option.bind_some, e3]

/-- **C71 (partial: the calls excluded by `MSafe`, as in C05).** Programs with any number of vectors, with throw points at every call, all of whose
calls are `Modest`: the arithmetic of `size_t` makes no difference. There is no undefined behaviour as long as no exception is fatal; the replies are
those of the specification; at the end memory is `Clean`, and the vectors are those of the specification. -/
theorem C71_machine_sizes_partial (P : Params) (E : Elem α) (hN : 0 < P.N) (hR : P.R ≤ P.N + 1)
    (ts : List (TOp α)) (rs : List (Reply α)) (y : Sys α)
    (hspec : Spec.mtrun P.N P.R E ts (fun _ => none) = some (rs, y))
    (hsafe : MTSafeRun P.N P.R E ts (fun _ => none)) (hmod : ModestRun P.N P.R E ts (fun _ => none)) :
    ∃ m, W.mtrun P E ts Mem.init = some (rs, m) ∧ Clean m ∧ (∀ i, m.vec i = none ↔ y i = none) ∧
      (∀ i v, y i = some v → ∃ u, m.vec i = some u ∧ u.al = v.al ∧ u.cap = v.home.cap P.N ∧
        u.isStatic = decide (v.home = .stat) ∧ size (m.view u) = .ok v.xs.length (m.view u) ∧
        ∀ k (hk : k < v.xs.length), at_ k (m.view u) = .ok v.xs[k] (m.view u)) ∧
      ((∀ i, y i = none) → ∀ k, m.heap k = none) := by
  rw [wmtrun_eq hN hR ts (init_mrep P) hsafe hspec hmod]
  exact C58_small_vector_throwing_partial P E hN hR ts rs y hspec hsafe

/-- the program of C58 -/
example : ModestRun 2 1 ⟨id, 0⟩ demoTOps (fun _ => none) := by
  simp [demoTOps, ModestRun, Modest, demand, Home.Modest, mtstep, tstep, fault, made, allocs, mstep, step, Sys.put, choose, growTo, argVal,
    moves, Home.cap, reserved]

/-- a vector in its static buffer that asks for `n` elements, which the allocator refuses -/
def bigTOps (n : Nat) : List (TOp Nat) :=
  [⟨.ctorRange 0 4 [1, 2], none, none⟩, ⟨.call 0 (.reserve n), none, some 0⟩, ⟨.call 0 (.resize n), none, some 0⟩,
   ⟨.ctorCount 1 4 n, none, some 0⟩, ⟨.call 0 (.pushBack (.val 3)), none, none⟩]

example (n : Nat) (h : 2 < n) (hn : n < 2 ^ 64) :
    (Spec.mtrun 2 1 ⟨id, 0⟩ (bigTOps n) (fun _ => none)).map (·.1) = some [.done, .exc .badAlloc, .exc .badAlloc, .exc .badAlloc, .done] ∧
    MTSafeRun 2 1 ⟨id, 0⟩ (bigTOps n) (fun _ => none) ∧ ModestRun 2 1 ⟨id, 0⟩ (bigTOps n) (fun _ => none) := by
  have h1 : ¬ n ≤ 2 := by omega
  refine ⟨?_, ?_, ?_⟩
  · simp [bigTOps, Spec.mtrun, mtstep, tstep, fault, made, allocs, mstep, step, Sys.put, choose, growTo, argVal, Home.cap, h]
  · simp [bigTOps, MTSafeRun, MSafe, Safe, Stable, mtstep, tstep, fault, made, allocs, mstep, step, Sys.put, choose, growTo, argVal,
      moves, Home.cap, reserved, h]
  · simp [bigTOps, ModestRun, Modest, demand, Home.Modest, mtstep, tstep, fault, made, allocs, mstep, step, Sys.put, choose, growTo, argVal,
      moves, Home.cap, reserved, h]
    omega

/-! ### Beyond -/

theorem wgrow_lt (c : Nat) : W.grow c < 2 ^ 63 := by
  have : (c * 3 % lim + 1) % lim < lim := Nat.mod_lt _ (by decide)
  simp only [W.grow, lim] at *
  omega

theorem wrounds_lt {n : Nat} (hn : 2 ^ 63 ≤ n) : ∀ k c, c < n → W.rounds k c < n
  | 0, _, h => h
  | k+1, c, _ => wrounds_lt hn k _ (Nat.lt_of_lt_of_le (wgrow_lt c) hn)

/-- the loop that computes the new capacity never ends -/
def Endless (cap n : Nat) : Prop := ∀ k, W.rounds k cap < n

theorem wchooseData_endless {s : St α} {d : Nat} (hs : s.v.isStatic = false) (hd : s.v.cap < d) (he : Endless s.v.cap d) :
    W.chooseData P d s = .ub := by
  have hno : ¬ ∃ k, d ≤ W.rounds k s.v.cap := fun ⟨k, hk⟩ => by have := he k; omega
  simp only [W.chooseData, M.bind_apply, M.get_apply, hs, Bool.false_eq_true, if_false]
  rw [if_pos hd]
  simp only [M.bind_apply, W.newCap, hno, dite_false, M.undef]

theorem wchooseData_refused {s : St α} {d : Nat} (hs : s.v.isStatic = false) (hd : s.v.cap < d) (he : ¬ Endless s.v.cap d) (ha : s.atick = some 0) :
    W.chooseData P d s = .throw .badAlloc s := by
  have hno : ∃ k, d ≤ W.rounds k s.v.cap := by
    simp only [Endless, not_forall, Nat.not_lt] at he; exact he
  simp only [W.chooseData, M.bind_apply, M.get_apply, hs, Bool.false_eq_true, if_false]
  rw [if_pos hd]
  simp only [M.bind_apply, W.newCap, hno, dite_true, M.pure_apply, allocate, ha]

/-- a call that needs room for more elements than there is -/
inductive Asks : Op α → List α → Nat → Prop
  | reserve (n xs) : Asks (.reserve n) xs n
  | resize (n xs) : Asks (.resize n) xs n
  | resizeV (n v xs) : Asks (.resizeV n v) xs n
  | insertN (p : Nat) (n v) (xs : List α) : p ≤ xs.length → xs.length + n < 2 ^ 64 → Asks (.insertN p n v) xs (xs.length + n)
  | insertRange (p : Nat) (ys) (xs : List α) : p ≤ xs.length → xs.length + ys.length < 2 ^ 64 → Asks (.insertRange p ys) xs (xs.length + ys.length)

/-- such a call begins with `choose_data` -/
theorem asks_first {op : Op α} {xs : List α} {d : Nat} (h : Asks op xs d) {s : St α} (ht : W.Tidy s) (hl : s.v.endo = xs.length) (hd : s.v.cap < d) :
    ∃ k : Loc × Nat → M (St α) (Reply α), W.exec P E op s = (W.chooseData P d >>= k) s := by
  have hc : ∀ n, s.v.cap < n → ∃ k : Loc × Nat → M (St α) Unit, W.reserve P E n s = (W.chooseData P n >>= k) s := fun n hn => by
    simp only [W.reserve, M.bind_apply, M.get_apply]
    rw [if_neg (by omega)]
    exact ⟨_, rfl⟩
  have hg : ∀ (p n : Nat), p ≤ xs.length → xs.length + n < lim → ∃ k : Loc × Nat → M (St α) (Loc × Nat),
      W.growAt P E p n s = (W.chooseData P (xs.length + n) >>= k) s := fun p n hp hn => by
    simp only [W.growAt, M.bind_apply, W.size_tidy ht]
    rw [if_neg (by omega), hl, Nat.mod_eq_of_lt hn]
    exact ⟨_, rfl⟩
  have hbb : ∀ {β γ δ : Type} (f : M (St α) β) (k : β → M (St α) γ) (g : γ → M (St α) δ), (f >>= fun x => k x >>= g) s =
      (match (f >>= k) s with | .ok a s' => g a s' | .throw e s' => .throw e s' | .ub => .ub) := fun f k g => by
    simp only [M.bind_apply]
    cases f s with
    | ok a s' => simp only; cases k a s' <;> rfl
    | throw e s' => rfl
    | ub => rfl
  cases h with
  | reserve n =>
    obtain ⟨k, hk⟩ := hc d hd
    exact ⟨fun x => k x >>= fun _ => pure .done, by
      rw [hbb, ← hk]
      simp only [W.exec, M.bind_apply]
      cases W.reserve P E d s <;> rfl⟩
  | resize n =>
    obtain ⟨k, hk⟩ := hc d hd
    refine ⟨fun x => k x >>= fun _ => (do let sz ← size; popLoop (sz - d); pushLoop (.val E.dflt) (d - sz)) >>= fun _ => pure .done, ?_⟩
    rw [hbb, ← hk]
    simp only [W.exec, W.resizeV, M.bind_apply, bindRef, M.get_apply, M.pure_apply]
    cases W.reserve P E d s <;> rfl
  | resizeV n v =>
    obtain ⟨k, hk⟩ := hc d hd
    obtain ⟨r, hr⟩ := W.bindRef_ok v s
    refine ⟨fun x => k x >>= fun _ => (do let sz ← size; popLoop (sz - d); pushLoop r (d - sz)) >>= fun _ => pure .done, ?_⟩
    rw [hbb, ← hk]
    simp only [W.exec, W.resizeV, M.bind_apply, hr]
    cases W.reserve P E d s <;> rfl
  | insertN p n v _ hp hn =>
    obtain ⟨k, hk⟩ := hg p n hp hn
    obtain ⟨r, hr⟩ := W.bindRef_ok v s
    refine ⟨fun x => k x >>= fun y => (do fillAt r y.1 y.2 n) >>= fun _ => pure (.at y.2), ?_⟩
    rw [hbb, ← hk]
    simp only [W.exec, W.insertN, M.bind_apply, hr]
    cases W.growAt P E p n s with
    | ok y s' => simp only; cases fillAt r y.1 y.2 n s' <;> rfl
    | throw e s' => rfl
    | ub => rfl
  | insertRange p ys _ hp hn =>
    obtain ⟨k, hk⟩ := hg p ys.length hp hn
    refine ⟨fun x => k x >>= fun y => (do copyAt y.1 y.2 ys) >>= fun _ => pure (.at y.2), ?_⟩
    rw [hbb, ← hk]
    simp only [W.exec, W.insertRange, M.bind_apply]
    cases W.growAt P E p ys.length s with
    | ok y s' => simp only; cases copyAt y.1 y.2 ys s' <;> rfl
    | throw e s' => rfl
    | ub => rfl

/-- the state after a history -/
theorem wreach (hN : 0 < P.N) (hR : P.R ≤ P.N + 1) {ts : List (TOp α)} {rs : List (Reply α)} {y : Sys α} {m : Mem α}
    (hspec : Spec.mtrun P.N P.R E ts (fun _ => none) = some (rs, y))
    (hsafe : MTSafeRun P.N P.R E ts (fun _ => none)) (hmod : ModestRun P.N P.R E ts (fun _ => none))
    (hm : W.mtrun P E ts Mem.init = some (rs, m)) : ∃ blk, MRep P (fun _ => none) y blk m := by
  obtain ⟨m1, blk, h1, hM⟩ := mtrun_mrep E hN hR ts (init_mrep P) hsafe hspec
  rw [wmtrun_eq hN hR ts (init_mrep P) hsafe hspec hmod, h1] at hm
  simp only [Option.some.injEq, Prod.mk.injEq, true_and] at hm
  exact ⟨blk, hm ▸ hM⟩

/-- **C71, any request that cannot be met.** After any such history, a call on a vector on the heap that needs more room than there is: if the
allocator refuses, then either the call throws and nothing has changed, or it does not return at all. -/
theorem C71_refused (hN : 0 < P.N) (hR : P.R ≤ P.N + 1) {ts : List (TOp α)} {rs : List (Reply α)} {y : Sys α} {m : Mem α}
    (hspec : Spec.mtrun P.N P.R E ts (fun _ => none) = some (rs, y))
    (hsafe : MTSafeRun P.N P.R E ts (fun _ => none)) (hmod : ModestRun P.N P.R E ts (fun _ => none))
    (hm : W.mtrun P E ts Mem.init = some (rs, m)) {i c d : Nat} {v : V α} (hi : y i = some v) (hh : v.home = .dyn c) (hd : c < d)
    {op : Op α} (hop : Asks op v.xs d) (tc : Option Nat) :
    (Endless c d ∧ W.tcall P E ⟨.call i op, tc, some 0⟩ m = none) ∨
    (¬ Endless c d ∧ W.tcall P E ⟨.call i op, tc, some 0⟩ m = some (.exc .badAlloc, m)) := by
  obtain ⟨blk, hM⟩ := wreach hN hR hspec hsafe hmod hm
  have hv : m.vec i = some (vecRep P i (blk i) v) := by rw [hM.vec, hi]; rfl
  have hs : (vecRep P i (blk i) v).isStatic = false := by simp [vecRep, Vec.isStatic, hh, loc]
  have hcap : (vecRep P i (blk i) v).cap = c := by simp [vecRep, hh, Home.cap]
  let s : St α := ({ m with ctick := tc, atick := some 0 } : Mem α).view (vecRep P i (blk i) v)
  have hsv : s.v = vecRep P i (blk i) v := rfl
  obtain ⟨k, hk⟩ := asks_first (P := P) (E := E) hop (s := s) rfl rfl (by rw [hsv, hcap]; exact hd)
  by_cases he : Endless c d
  · refine .inl ⟨he, ?_⟩
    have hch := wchooseData_endless (P := P) (s := s) hs (by rw [hsv, hcap]; exact hd) (by rw [hsv, hcap]; exact he)
    simp only [W.tcall, W.mexec, at', hv]
    rw [show W.exec P E op (({ m with ctick := tc, atick := some 0 } : Mem α).view (vecRep P i (blk i) v)) = _ from hk, M.bind_apply, hch]
  · refine .inr ⟨he, ?_⟩
    have hch := wchooseData_refused (P := P) (s := s) hs (by rw [hsv, hcap]; exact hd) (by rw [hsv, hcap]; exact he) rfl
    simp only [W.tcall, W.mexec, at', hv]
    rw [show W.exec P E op (({ m with ctick := tc, atick := some 0 } : Mem α).view (vecRep P i (blk i) v)) = _ from hk, M.bind_apply, hch]
    simp only [s, Mem.view, Mem.upd, Option.some.injEq, Prod.mk.injEq, true_and]
    have hct := hM.ct
    have hat := hM.at'
    have hup : Function.update m.vec i (some (vecRep P i (blk i) v)) = m.vec := by rw [← hv, Function.update_eq_self]
    cases m
    simp_all

/-- 1, 2 and 3 in a `small_vector<int, 2>`, on the heap, with a capacity of 3 -/
def threeT : List (TOp Nat) := [⟨.ctorRange 0 4 [1, 2, 3], none, none⟩]

def threeSys : Sys Nat := Sys.put (fun _ => none) 0 (some ⟨4, .dyn 3, [1, 2, 3]⟩)

theorem three_spec : Spec.mtrun 2 1 ⟨id, 0⟩ threeT (fun _ => none) = some ([.done], threeSys) ∧
    MTSafeRun 2 1 ⟨id, 0⟩ threeT (fun _ => none) ∧ ModestRun 2 1 ⟨id, 0⟩ threeT (fun _ => none) := by
  refine ⟨?_, ?_, ?_⟩
  · simp [threeT, threeSys, Spec.mtrun, mtstep, fault, mstep, choose]
  · simp [threeT, MTSafeRun, MSafe, mtstep, fault, mstep]
  · simp [threeT, ModestRun, Modest, mtstep, fault, mstep]

/-- `reserve(1000)` and the insertion of 100 elements, refused -/
example : ∃ m, W.mtrun ⟨2, 1⟩ ⟨id, 0⟩ threeT Mem.init = some ([.done], m) ∧
    W.tcall ⟨2, 1⟩ ⟨id, 0⟩ ⟨.call 0 (.reserve 1000), none, some 0⟩ m = some (.exc .badAlloc, m) ∧
    W.tcall ⟨2, 1⟩ ⟨id, 0⟩ ⟨.call 0 (.insertN 1 100 (.self 0)), none, some 0⟩ m = some (.exc .badAlloc, m) := by
  obtain ⟨h1, h2, h3⟩ := three_spec
  obtain ⟨m, hm, -⟩ := C71_machine_sizes_partial ⟨2, 1⟩ ⟨id, 0⟩ (by decide) (by decide) _ _ _ h1 h2 h3
  have hne : ∀ d, 3 * d ≤ 2 ^ 64 → ¬ Endless 3 d := fun d hd h => by
    obtain ⟨k, -, hk, -⟩ := W.rounds_spec hd d 3 (by decide) (by omega)
    have := h k
    omega
  have hi : threeSys 0 = some ⟨4, .dyn 3, [1, 2, 3]⟩ := by simp [threeSys, Sys.put]
  refine ⟨m, hm, ?_, ?_⟩
  · rcases C71_refused (P := ⟨2, 1⟩) (by decide) (by decide) h1 h2 h3 hm hi rfl (d := 1000) (by decide) (.reserve _ _) none with h | h
    · exact absurd h.1 (hne _ (by decide))
    · exact h.2
  · rcases C71_refused (P := ⟨2, 1⟩) (by decide) (by decide) h1 h2 h3 hm hi rfl (d := 103) (by decide)
      (.insertN 1 100 (.self 0) [1, 2, 3] (by decide) (by decide)) none with h | h
    · exact absurd h.1 (hne _ (by decide))
    · exact h.2

/-- **C71, defect.** A call on a vector on the heap that needs room for 2^63 elements or more never returns, whatever the allocator would say:
the loop that computes the new capacity cannot reach that number. (A vector in its static buffer asks the allocator.) -/
theorem C71_defect_endless (hN : 0 < P.N) (hR : P.R ≤ P.N + 1) {ts : List (TOp α)} {rs : List (Reply α)} {y : Sys α} {m : Mem α}
    (hspec : Spec.mtrun P.N P.R E ts (fun _ => none) = some (rs, y))
    (hsafe : MTSafeRun P.N P.R E ts (fun _ => none)) (hmod : ModestRun P.N P.R E ts (fun _ => none))
    (hm : W.mtrun P E ts Mem.init = some (rs, m)) {i c d : Nat} {v : V α} (hi : y i = some v) (hh : v.home = .dyn c) (hc : c < d)
    (hd : 2 ^ 63 ≤ d) {op : Op α} (hop : Asks op v.xs d) (tc ta : Option Nat) :
    Endless c d ∧ W.tcall P E ⟨.call i op, tc, ta⟩ m = none := by
  obtain ⟨blk, hM⟩ := wreach hN hR hspec hsafe hmod hm
  have hv : m.vec i = some (vecRep P i (blk i) v) := by rw [hM.vec, hi]; rfl
  have hs : (vecRep P i (blk i) v).isStatic = false := by simp [vecRep, Vec.isStatic, hh, loc]
  have hcap : (vecRep P i (blk i) v).cap = c := by simp [vecRep, hh, Home.cap]
  let s : St α := ({ m with ctick := tc, atick := ta } : Mem α).view (vecRep P i (blk i) v)
  have hsv : s.v = vecRep P i (blk i) v := rfl
  obtain ⟨k, hk⟩ := asks_first (P := P) (E := E) hop (s := s) rfl rfl (by rw [hsv, hcap]; exact hc)
  have he : Endless c d := fun k => wrounds_lt hd k c hc
  have hch := wchooseData_endless (P := P) (s := s) hs (by rw [hsv, hcap]; exact hc) (by rw [hsv, hcap]; exact he)
  refine ⟨he, ?_⟩
  simp only [W.tcall, W.mexec, at', hv]
  rw [show W.exec P E op (({ m with ctick := tc, atick := ta } : Mem α).view (vecRep P i (blk i) v)) = _ from hk, M.bind_apply, hch]

/-- `resize(size_t(-1))` on the vector of three -/
example : ∃ m, W.mtrun ⟨2, 1⟩ ⟨id, 0⟩ threeT Mem.init = some ([.done], m) ∧
    W.tcall ⟨2, 1⟩ ⟨id, 0⟩ ⟨.call 0 (.resize (2 ^ 64 - 1)), none, some 0⟩ m = none := by
  obtain ⟨h1, h2, h3⟩ := three_spec
  obtain ⟨m, hm, -⟩ := C71_machine_sizes_partial ⟨2, 1⟩ ⟨id, 0⟩ (by decide) (by decide) _ _ _ h1 h2 h3
  have hi : threeSys 0 = some ⟨4, .dyn 3, [1, 2, 3]⟩ := by simp [threeSys, Sys.put]
  exact ⟨m, hm, (C71_defect_endless (P := ⟨2, 1⟩) (by decide) (by decide) h1 h2 h3 hm hi rfl (d := 2 ^ 64 - 1) (by decide) (by decide)
    (.resize _ _) none (some 0)).2⟩

/-! ### A size that wraps around -/

/-- no storage for 2^64 elements; elements do not throw -/
def Room (s : St α) : Prop := s.ctick = none ∧ ∀ l b, s.buf l = some b → b.cap < lim

theorem setBuf_room {s : St α} (h : Room s) {l : Loc} {b b' : Buf α} (hl : s.buf l = some b) (hb : b'.cap = b.cap) : Room (s.setBuf l b') := by
  have hb2 : b'.cap < lim := hb ▸ h.2 l b hl
  cases l with
  | stat i =>
    refine ⟨h.1, fun l c hc => ?_⟩
    cases l with
    | stat j =>
      by_cases hj : j = s.v.self
      · rw [show (s.setBuf (.stat i) b').buf (.stat j) = some b' by simp [St.setBuf, St.buf, hj], Option.some.injEq] at hc
        exact hc ▸ hb2
      · rw [show (s.setBuf (.stat i) b').buf (.stat j) = none by simp [St.setBuf, St.buf, hj]] at hc
        cases hc
    | dyn k => exact h.2 (.dyn k) c hc
  | dyn k =>
    refine ⟨h.1, fun l c hc => ?_⟩
    cases l with
    | stat j => exact h.2 (.stat j) c hc
    | dyn j =>
      simp only [St.setBuf, St.buf] at hc
      by_cases hjk : j = k
      · subst hjk
        simp only [Function.update_self, Option.map_map, Option.map_eq_some_iff] at hc
        obtain ⟨x, -, hx⟩ := hc
        exact hx ▸ hb2
      · rw [Function.update_of_ne hjk] at hc
        exact h.2 (.dyn j) c hc

/-- `f` does not throw, and `Q` holds if it returns -/
def Post {β : Type} (f : M (St α) β) (s : St α) (Q : β → St α → Prop) : Prop := match f s with
  | .ok a s' => Q a s'
  | .throw _ _ => False
  | .ub => True

theorem Post.bind {β γ : Type} {f : M (St α) β} {g : β → M (St α) γ} {s : St α} {Q : β → St α → Prop} {Q' : γ → St α → Prop} (hf : Post f s Q)
    (hg : ∀ a s', Q a s' → Post (g a) s' Q') : Post (f >>= g) s Q' := by
  simp only [Post, M.bind_apply] at *
  cases h : f s with
  | ok a s' => rw [h] at hf; exact hg a s' hf
  | throw e s' => rw [h] at hf; exact hf.elim
  | ub => trivial

theorem Post.ub {β : Type} {f : M (St α) β} {s : St α} (h : Post f s fun _ _ => False) : f s = .ub := by
  simp only [Post] at h
  cases e : f s with
  | ok a s' => rw [e] at h; exact h.elim
  | throw x s' => rw [e] at h; exact h.elim
  | ub => rfl

/-- `f` keeps the room and does not throw -/
def Keeps {β : Type} (f : M (St α) β) : Prop := ∀ s, Room s → Post f s fun _ s' => Room s'

theorem onLoc_keeps (l : Loc) {f : Buf α → Option (Buf α)} (hf : ∀ b b', f b = some b' → b'.cap = b.cap) : Keeps (onLoc l f) := by
  intro s hs
  simp only [Post, onLoc, M.mem, Option.bind_eq_bind]
  cases h1 : s.buf l with
  | none => simp
  | some b =>
    cases h2 : f b with
    | none => simp [h2]
    | some b' => simp only [Option.bind_some, h2]; exact setBuf_room hs h1 (hf b b' h2)

theorem buf_setBuf {s : St α} {l l' : Loc} (h : l ≠ l') {b0 : Buf α} (hb : s.buf l = some b0) (b : Buf α) :
    (s.setBuf l b).buf l' = s.buf l' := by
  cases l with
  | stat i =>
    cases l' with
    | stat j =>
      have hi : i = s.v.self := by
        by_contra hi
        simp [St.buf, hi] at hb
      have hj : j ≠ s.v.self := fun hj => h (by rw [hi, hj])
      simp [St.setBuf, St.buf, hj]
    | dyn k => rfl
  | dyn i =>
    cases l' with
    | stat j => rfl
    | dyn j =>
      have : j ≠ i := fun hj => h (by rw [hj])
      simp only [St.setBuf, St.buf, Function.update_of_ne this]

theorem onLoc2_keeps (l l' : Loc) {f : Buf α → Buf α → Option (Buf α × Buf α)}
    (hf : ∀ b c b' c', f b c = some (b', c') → b'.cap = b.cap ∧ c'.cap = c.cap) : Keeps (onLoc2 l l' f) := by
  intro s hs
  simp only [Post, onLoc2, M.mem, Option.bind_eq_bind]
  by_cases hll : l = l'
  · simp [hll]
  simp only [if_neg hll]
  cases h1 : s.buf l with
  | none => simp
  | some b =>
    cases h2 : s.buf l' with
    | none => simp
    | some c =>
      cases h3 : f b c with
      | none => simp [h3]
      | some p =>
        obtain ⟨b', c'⟩ := p
        obtain ⟨e1, e2⟩ := hf b c b' c' h3
        simp only [Option.bind_some, h3]
        exact setBuf_room (setBuf_room hs h1 e1) (by rw [buf_setBuf hll h1]; exact h2) e2

theorem construct_cap {i : Nat} {a : α} {b b' : Buf α} (h : b.construct i a = some b') : b'.cap = b.cap ∧ i < b.cap := by
  simp only [Buf.construct] at h
  split at h
  · split at h
    · cases h; exact ⟨rfl, by assumption⟩
    · cases h
  · cases h

theorem destroy_cap {i : Nat} {b b' : Buf α} (h : b.destroy i = some b') : b'.cap = b.cap := by
  simp only [Buf.destroy] at h
  split at h
  · split at h
    · cases h
    · cases h; rfl
  · cases h

theorem moveOut_cap {mv : α → α} {i : Nat} {a : α} {b b' : Buf α} (h : b.moveOut mv i = some (a, b')) : b'.cap = b.cap := by
  simp only [Buf.moveOut] at h
  split at h
  · split at h
    · cases h
    · cases h; rfl
  · cases h

theorem destroyRange_cap : ∀ (k p : Nat) (b b' : Buf α), b.destroyRange p k = some b' → b'.cap = b.cap
  | 0, _, b, b', h => by cases h; rfl
  | k+1, p, b, b', h => by
    simp only [Buf.destroyRange, Option.bind_eq_bind, Option.bind_eq_some_iff] at h
    obtain ⟨b1, h1, h2⟩ := h
    rw [destroyRange_cap k _ _ _ h2, destroy_cap h1]

theorem moveLoop_cap (mv : α → α) : ∀ (k p np : Nat) (b c b' c' : Buf α), moveLoop mv p np k b c = some (b', c') →
    b'.cap = b.cap ∧ c'.cap = c.cap ∧ (0 < k → np + k ≤ c.cap)
  | 0, _, _, b, c, b', c', h => by cases h; exact ⟨rfl, rfl, by omega⟩
  | k+1, p, np, b, c, b', c', h => by
    simp only [moveLoop, Option.bind_eq_bind, Option.bind_eq_some_iff] at h
    obtain ⟨⟨a, b1⟩, h1, c1, h2, h3⟩ := h
    obtain ⟨e1, e2, e3⟩ := moveLoop_cap mv k _ _ _ _ _ _ h3
    obtain ⟨e4, e5⟩ := construct_cap h2
    refine ⟨by rw [e1, moveOut_cap h1], by rw [e2, e4], fun _ => ?_⟩
    rw [e4] at e3
    omega

theorem freeDyn_keeps : Keeps (α := α) freeDyn := by
  intro s hs
  simp only [Post, freeDyn, M.bind_apply, M.get_apply]
  by_cases h : s.v.isStatic = true
  · rw [if_pos h]; exact hs
  · rw [if_neg h]
    simp only [deallocate, M.mem]
    cases hb : s.v.bgn with
    | stat i => simp
    | dyn k =>
      cases hk : s.heap k with
      | none => simp [hk]
      | some x =>
        simp only [hk]
        by_cases hx : x.al = s.v.al ∧ x.buf.cap = s.v.cap
        · simp only [if_pos hx]
          refine ⟨hs.1, fun l b hb' => ?_⟩
          cases l with
          | stat j => exact hs.2 (.stat j) b hb'
          | dyn j =>
            simp only [St.buf] at hb'
            by_cases hjk : j = k
            · subst hjk; simp at hb'
            · rw [Function.update_of_ne hjk] at hb'
              exact hs.2 (.dyn j) b hb'
        · simp only [if_neg hx]

theorem loadRef_keeps (r : Ref α) : Keeps (loadRef r) := by
  intro s hs
  cases r with
  | val a => exact hs
  | slot l i =>
    simp only [Post, loadRef, M.load]
    cases (s.buf l >>= fun b => b.read i) with
    | none => trivial
    | some a => exact hs

theorem emplaceAt_post {l : Loc} {p : Nat} {a : α} {s : St α} (hs : Room s) : Post (emplaceAt l p a) s fun _ s' => Room s' ∧ p + 1 < lim := by
  simp only [Post, emplaceAt, hs.1, onLoc, M.mem, Option.bind_eq_bind]
  cases h1 : s.buf l with
  | none => simp
  | some b =>
    cases h2 : b.construct p a with
    | none => simp [h2]
    | some b' =>
      simp only [Option.bind_some, h2]
      obtain ⟨e1, e2⟩ := construct_cap h2
      exact ⟨setBuf_room hs h1 e1, Nat.lt_of_le_of_lt e2 (hs.2 l b h1)⟩

theorem fillAt_post (r : Ref α) (l : Loc) : ∀ (k p : Nat) (s : St α), Room s → 0 < k → lim ≤ p + k → Post (fillAt r l p k) s fun _ _ => False
  | 0, _, _, _, h, _ => by omega
  | k+1, p, s, hs, _, hp => by
    simp only [fillAt]
    refine (loadRef_keeps r s hs).bind fun a s hs => (emplaceAt_post hs).bind fun _ s hs => ?_
    by_cases hk : 0 < k
    · exact fillAt_post r l k (p + 1) s hs.1 hk (by omega)
    · have := hs.2
      omega

theorem shiftUp_none (mv : α → α) (n pos k : Nat) (b : Buf α) (h : b.cap ≤ pos + k + n) : b.shiftUp mv n pos (k + 1) = none := by
  simp only [Buf.shiftUp, Option.bind_eq_bind, Buf.moveConstruct]
  cases h1 : b.moveOut mv (pos + k) with
  | none => rfl
  | some p =>
    obtain ⟨a, b1⟩ := p
    have h2 : b1.construct (pos + k + n) a = none := by
      simp only [Buf.construct]
      rw [if_neg (by have := moveOut_cap h1; omega)]
    simp [h2]

/-- **C71, defect.** `insert(pos, n, value)` is undefined if there would be 2^64 elements or more: the new size wraps around, so that no memory is
asked for, and elements are moved or constructed past the end of the buffer (storage being for fewer than 2^64 elements). -/
theorem C71_defect_insert (hN : 0 < P.N) (hR : P.R ≤ P.N + 1) {ts : List (TOp α)} {rs : List (Reply α)} {y : Sys α} {m : Mem α}
    (hspec : Spec.mtrun P.N P.R E ts (fun _ => none) = some (rs, y))
    (hsafe : MTSafeRun P.N P.R E ts (fun _ => none)) (hmod : ModestRun P.N P.R E ts (fun _ => none))
    (hm : W.mtrun P E ts Mem.init = some (rs, m)) (hNl : P.N < 2 ^ 64) (hcap : ∀ j w, y j = some w → w.home.cap P.N < 2 ^ 64)
    {i pos n : Nat} {v : V α} (hi : y i = some v) (hp : pos ≤ v.xs.length) (hn : n < 2 ^ 64) (hs : 2 ^ 64 ≤ v.xs.length + n) (a : Arg α)
    (ta : Option Nat) : W.tcall P E ⟨.call i (.insertN pos n a), none, ta⟩ m = none := by
  obtain ⟨blk, hM⟩ := wreach hN hR hspec hsafe hmod hm
  have hv : m.vec i = some (vecRep P i (blk i) v) := by rw [hM.vec, hi]; rfl
  have hlen := hM.len i v hi
  have hb : ∀ k b, m.heap k = some b → b.buf.cap < 2 ^ 64 := by
    intro k b hk
    obtain ⟨j, w, c, h1, h2, h3⟩ := hM.owner hk
    have h4 := (hM.own j w c h1 h2).1
    rw [h3, hk, Option.some.injEq] at h4
    have h5 := hcap j w h1
    rw [h2] at h5
    rw [h4]
    exact h5
  let s : St α := ({ m with ctick := none, atick := ta } : Mem α).view (vecRep P i (blk i) v)
  have hroom : Room s := by
    refine ⟨rfl, fun l b hl => ?_⟩
    cases l with
    | stat j =>
      simp only [St.buf] at hl
      split at hl
      · simp only [Option.some.injEq] at hl
        subst hl
        simp only [s, Mem.view, vecRep]
        cases v.home <;> simpa [Buf.ofList, Buf.fresh, putStat, Home.cap] using hNl
      · cases hl
    | dyn k =>
      simp only [St.buf, Option.map_eq_some_iff] at hl
      obtain ⟨x, hx, rfl⟩ := hl
      exact hb k x hx
  have hcl := hcap i v hi
  have hmd : (v.xs.length + n) % lim < v.xs.length := by
    simp only [lim]; omega
  have hn0 : 0 < n := by omega
  have hch : ∃ l c, W.chooseData P ((v.xs.length + n) % lim) s = .ok (l, c) s := by
    simp only [W.chooseData, M.bind_apply, M.get_apply]
    by_cases hst : s.v.isStatic = true
    · have hh : v.home.cap P.N = P.N := by
        cases hh : v.home with
        | stat => rfl
        | dyn c => simp [s, Mem.view, vecRep, Vec.isStatic, hh, loc] at hst
      rw [if_pos hst, if_neg (by omega)]
      exact ⟨_, _, rfl⟩
    · rw [if_neg hst, if_neg (by show ¬ _ > v.home.cap P.N; omega)]
      split
      · exact ⟨_, _, rfl⟩
      · exact ⟨_, _, rfl⟩
  obtain ⟨l, c, hch⟩ := hch
  have hgoal : W.insertN P E pos n a s = .ub := by
    obtain ⟨r, hr⟩ := W.bindRef_ok a s
    have hsz : size s = .ok v.xs.length s := W.size_tidy (s := s) rfl
    have hpos : ¬ ((pos : Int) < 0 ∨ (pos : Int) > v.xs.length) := by omega
    refine Post.ub ?_
    simp only [W.insertN]
    have hg : Post (W.growAt P E pos n) s fun x s' => Room s' ∧ x.2 = pos ∧ pos = v.xs.length := by
      simp only [W.growAt]
      refine Post.bind (Q := fun x s' => x = v.xs.length ∧ s' = s) (by simp [Post, hsz]) ?_
      rintro _ _ ⟨rfl, rfl⟩
      rw [if_neg hpos]
      refine Post.bind (Q := fun x s' => x = (l, c) ∧ s' = s) (by simp [Post, hch]) ?_
      rintro _ _ ⟨rfl, rfl⟩
      refine Post.bind (Q := fun x s' => x = s ∧ s' = s) ⟨rfl, rfl⟩ ?_
      rintro _ _ ⟨rfl, rfl⟩
      simp only [Int.toNat_natCast]
      by_cases hl : l = s.v.bgn
      · rw [if_pos hl]
        refine Post.bind (Q := fun _ s' => Room s') ?_ fun _ s1 hs1 => ?_
        · refine ⟨hroom.1, fun l b h => hroom.2 l b ?_⟩
          cases l <;> exact h
        · by_cases he : pos = v.xs.length
          · exact (onLoc_keeps _ (fun b b' h => by rw [he, Nat.sub_self] at h; cases h; rfl) s1 hs1).bind fun _ s2 hs2 => ⟨hs2, rfl, he⟩
          · obtain ⟨k, hk⟩ : ∃ k, v.xs.length - pos = k + 1 := ⟨v.xs.length - pos - 1, by omega⟩
            refine Post.bind (Q := fun _ _ => False) ?_ fun _ _ h => h.elim
            simp only [Post, onLoc, M.mem, Option.bind_eq_bind]
            cases h1 : s1.buf s.v.bgn with
            | none => simp
            | some b =>
              have h2 := hs1.2 _ b h1
              rw [hk]
              simp [shiftUp_none E.mv n pos k b (by simp only [lim] at h2; omega)]
      · rw [if_neg hl]
        refine (onLoc2_keeps _ _ (fun b c b' c' h => ⟨(moveLoop_cap _ _ _ _ _ _ _ _ h).1, (moveLoop_cap _ _ _ _ _ _ _ _ h).2.1⟩) s hroom).bind fun _ s1 hs1 => ?_
        refine Post.bind (Q := fun _ s' => Room s' ∧ pos = v.xs.length) ?_ fun _ s2 hs2 => ?_
        · by_cases he : pos = v.xs.length
          · have := onLoc2_keeps s.v.bgn l (f := moveLoop E.mv pos (pos + n) (v.xs.length - pos))
              (fun b c b' c' h => ⟨(moveLoop_cap _ _ _ _ _ _ _ _ h).1, (moveLoop_cap _ _ _ _ _ _ _ _ h).2.1⟩) s1 hs1
            simp only [Post] at this ⊢
            split <;> simp_all
          · simp only [Post, onLoc2, M.mem, Option.bind_eq_bind]
            by_cases hll : s.v.bgn = l
            · simp [hll]
            simp only [if_neg hll]
            cases h1 : s1.buf s.v.bgn with
            | none => simp
            | some b =>
              cases h2 : s1.buf l with
              | none => simp
              | some d =>
                have h3 := hs1.2 _ d h2
                cases h4 : moveLoop E.mv pos (pos + n) (v.xs.length - pos) b d with
                | none => simp [h4]
                | some q =>
                  have := (moveLoop_cap _ _ _ _ _ _ _ _ (show _ = some (q.1, q.2) from h4)).2.2 (by omega)
                  simp only [lim] at h3
                  omega
        · refine (onLoc_keeps _ (fun b b' h => destroyRange_cap _ _ _ _ h) s2 hs2.1).bind fun _ s3 hs3 => (freeDyn_keeps s3 hs3).bind fun _ s4 hs4 => ?_
          refine Post.bind (Q := fun _ s' => Room s') ?_ fun _ s5 hs5 => ⟨hs5, rfl, hs2.2⟩
          refine ⟨hs4.1, fun l b h => hs4.2 l b ?_⟩
          cases l <;> exact h
    refine Post.bind (Q := fun x s' => x = r ∧ s' = s) (by simp [Post, hr]) ?_
    rintro _ _ ⟨rfl, rfl⟩
    refine hg.bind ?_
    rintro ⟨l', p'⟩ s' ⟨h1, h2, h3⟩
    refine Post.bind (fillAt_post _ _ n p' s' h1 hn0 ?_) fun _ _ h => h.elim
    simp only [lim] at *
    omega
  simp only [W.tcall, W.mexec, at', hv]
  rw [show W.exec P E (.insertN pos n a) (({ m with ctick := none, atick := ta } : Mem α).view (vecRep P i (blk i) v)) = .ub by
    show (W.insertN P E pos n a >>= fun i => pure (Reply.at i)) s = .ub
    rw [M.bind_apply, hgoal]]

/-- three elements, and 2^64 - 1 more -/
example : ∃ m, W.mtrun ⟨2, 1⟩ ⟨id, 0⟩ threeT Mem.init = some ([.done], m) ∧
    W.tcall ⟨2, 1⟩ ⟨id, 0⟩ ⟨.call 0 (.insertN 1 (2 ^ 64 - 1) (.val 7)), none, none⟩ m = none := by
  obtain ⟨h1, h2, h3⟩ := three_spec
  obtain ⟨m, hm, -⟩ := C71_machine_sizes_partial ⟨2, 1⟩ ⟨id, 0⟩ (by decide) (by decide) _ _ _ h1 h2 h3
  have hi : threeSys 0 = some ⟨4, .dyn 3, [1, 2, 3]⟩ := by simp [threeSys, Sys.put]
  refine ⟨m, hm, C71_defect_insert (P := ⟨2, 1⟩) (by decide) (by decide) h1 h2 h3 hm (by decide) ?_ hi (by decide) (by decide) (by decide) _ none⟩
  intro j w hw
  by_cases hj : j = 0
  · subst hj; rw [hi] at hw; cases hw; decide
  · simp [threeSys, Sys.put, hj] at hw

end Itlib.SmallVector
