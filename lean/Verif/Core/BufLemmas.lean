import Verif.Core.Buf

/-! # Proof engineering for buffers (no property statements here) -/
namespace Itlib.Buf
variable {α : Type}

@[ext] theorem ext' {a b : Buf α} (h : a.cap = b.cap) (h' : ∀ i, a.cells i = b.cells i) : a = b := by
  cases a; cases b; simp at h; subst h; congr; funext i; exact h' i

theorem construct_raw {b : Buf α} {i : Nat} {a : α} (hi : i < b.cap) (h : b.cells i = .raw) :
    b.construct i a = some ⟨b.cap, Function.update b.cells i (.live a)⟩ := by
  simp [construct, hi, h]

theorem destroy_live {b : Buf α} {i : Nat} {a : α} (hi : i < b.cap) (h : b.cells i = .live a) :
    b.destroy i = some ⟨b.cap, Function.update b.cells i .raw⟩ := by
  simp [destroy, hi, h]

theorem read_live {b : Buf α} {i : Nat} {a : α} (hi : i < b.cap) (h : b.cells i = .live a) :
    b.read i = some a := by
  simp [read, hi, h]

theorem assign_live {b : Buf α} {i : Nat} {a c : α} (hi : i < b.cap) (h : b.cells i = .live c) :
    b.assign i a = some ⟨b.cap, Function.update b.cells i (.live a)⟩ := by
  simp [assign, hi, h]

theorem moveOut_live {mv : α → α} {b : Buf α} {i : Nat} {a : α} (hi : i < b.cap) (h : b.cells i = .live a) :
    b.moveOut mv i = some (a, ⟨b.cap, Function.update b.cells i (.live (mv a))⟩) := by
  simp [moveOut, hi, h]

theorem moveConstruct_live {mv : α → α} {b : Buf α} {d s : Nat} {a : α} (hs : s < b.cap) (hd : d < b.cap)
    (h : b.cells s = .live a) (hr : b.cells d = .raw) :
    b.moveConstruct mv d s =
      some ⟨b.cap, Function.update (Function.update b.cells s (.live (mv a))) d (.live a)⟩ := by
  have hne : d ≠ s := by intro e; subst e; simp [h] at hr
  simp [moveConstruct, moveOut_live hs h]
  rw [construct_raw] <;> simp [hd, hne, hr]

/-- effect of `shiftUp` -/
theorem shiftUp_eq (mv : α → α) (by_ pos : Nat) (hby : 0 < by_) : ∀ (k : Nat) (b : Buf α),
    pos + k + by_ ≤ b.cap →
    (∀ i, pos ≤ i → i < pos + k → ∃ a, b.cells i = .live a) →
    (∀ i, pos + k ≤ i → i < pos + k + by_ → b.cells i = .raw) →
    b.shiftUp mv by_ pos k = some ⟨b.cap, fun i =>
      if pos + by_ ≤ i ∧ i < pos + by_ + k then b.cells (i - by_)
      else if pos ≤ i ∧ i < pos + by_ then .raw else b.cells i⟩ := by
  intro k
  induction k with
  | zero =>
    intro b hc hl hr
    simp only [shiftUp, Option.some.injEq]
    ext i
    · rfl
    · simp only
      have := hr i
      split
      · omega
      · split <;> simp_all
  | succ k ih =>
    intro b hc hl hr
    obtain ⟨a, ha⟩ := hl (pos + k) (by omega) (by omega)
    simp only [shiftUp]
    rw [moveConstruct_live (by omega) (by omega) ha (hr _ (by omega) (by omega))]
    have hne : pos + k ≠ pos + k + by_ := by omega
    simp only [Option.bind_eq_bind, Option.bind_some]
    rw [destroy_live (a := mv a) (by simp only; omega)
      (by simp [Function.update_of_ne hne])]
    simp only [Option.bind_some]
    rw [ih]
    · simp only [Option.some.injEq]
      ext i
      · rfl
      · simp only [Function.update_apply]
        grind
    · simp only; omega
    · intro i h1 h2
      have h3 : i ≠ pos + k := by omega
      have h4 : i ≠ pos + k + by_ := by omega
      simp only [Function.update_apply, h3, h4, if_false]
      exact hl i h1 (by omega)
    · intro i h1 h2
      have h4 : i ≠ pos + k + by_ := by omega
      simp only [Function.update_apply, h4, if_false]
      by_cases h3 : i = pos + k
      · simp [h3]
      · simp only [h3, if_false]
        exact hr i (by omega) (by omega)

/-- effect of `shiftDown` -/
theorem shiftDown_eq (mv : α → α) (num : Nat) (hn : 0 < num) : ∀ (k f p : Nat) (b : Buf α),
    p + num + k ≤ b.cap → k < f →
    (∀ i, p ≤ i → i < p + num + k → ∃ a, b.cells i = .live a) →
    ∃ c, b.shiftDown mv (p + num + k) f p (p + num) = some ⟨b.cap, c⟩ ∧
      (∀ i, c i = if p ≤ i ∧ i < p + k then b.cells (i + num)
        else if p + k ≤ i ∧ i < p + k + num then c i else b.cells i) ∧
      (∀ i, p + k ≤ i → i < p + k + num → ∃ a, c i = .live a) := by
  intro k
  induction k with
  | zero =>
    intro f p b hc hf hl
    obtain ⟨f, rfl⟩ : ∃ g, f = g + 1 := ⟨f - 1, by omega⟩
    refine ⟨b.cells, ?_, ?_, ?_⟩
    · simp [shiftDown]
    · intro i; split
      · omega
      · simp
    · intro i h1 h2; exact hl i (by omega) (by omega)
  | succ k ih =>
    intro f p b hc hf hl
    obtain ⟨f, rfl⟩ : ∃ g, f = g + 1 := ⟨f - 1, by omega⟩
    obtain ⟨a0, h0⟩ := hl p (by omega) (by omega)
    obtain ⟨a, ha⟩ := hl (p + num) (by omega) (by omega)
    have hne : p + num ≠ p := by omega
    simp only [shiftDown]
    rw [if_neg (by omega), destroy_live (by omega) h0]
    simp only [Option.bind_eq_bind, Option.bind_some]
    rw [moveConstruct_live (a := a) (by simp only; omega) (by simp only; omega)
      (by simp [Function.update_of_ne hne, ha]) (by simp)]
    simp only [Option.bind_some]
    obtain ⟨c, hc1, hc2, hc3⟩ := ih f (p+1) ⟨b.cap, Function.update (Function.update (Function.update b.cells p .raw) (p+num) (.live (mv a))) p (.live a)⟩
      (by simp only; omega) (by omega) (by
        intro i h1 h2
        simp only [Function.update_apply]
        by_cases h3 : i = p + num
        · have : ¬ i = p := by omega
          exact ⟨mv a, by rw [if_neg this, if_pos h3]⟩
        · have : ¬ i = p := by omega
          simp only [this, h3, if_false]
          exact hl i (by omega) (by omega))
    refine ⟨c, ?_, ?_, ?_⟩
    · rw [show p + num + (k+1) = p + 1 + num + k by omega, show p + num + 1 = p + 1 + num by omega, hc1]
    · intro i
      have h := hc2 i
      simp only [Function.update_apply] at h
      by_cases h1 : i = p
      · subst h1
        have e1 : ¬ (i + 1 ≤ i ∧ i < i + 1 + k) := by omega
        have e2 : ¬ (i + 1 + k ≤ i ∧ i < i + 1 + k + num) := by omega
        have e3 : (i ≤ i ∧ i < i + (k+1)) := by omega
        simp only [e1, e2, if_false, if_true] at h
        rw [h, if_pos e3, ha]
      · by_cases h2 : p ≤ i ∧ i < p + (k+1)
        · have e1 : (p + 1 ≤ i ∧ i < p + 1 + k) := by omega
          have e4 : ¬ (i + num = p) := by omega
          have e5 : ¬ (i = p) := by omega
          have e6 : ¬ (i + num = p + num) := by omega
          simp only [e1, and_self, if_true, e4, e6, if_false] at h
          rw [if_pos h2, h]
        · rw [if_neg h2]
          split
          · rfl
          · rename_i h3
            have e1 : ¬ (p + 1 ≤ i ∧ i < p + 1 + k) := by omega
            have e2 : ¬ (p + 1 + k ≤ i ∧ i < p + 1 + k + num) := by omega
            have e3 : ¬ (i = p + num) := by omega
            simp only [e1, e2, if_false, h1, e3] at h
            exact h
    · intro i h1 h2
      exact hc3 i (by omega) (by omega)

/-- effect of `destroyRange` -/
theorem destroyRange_eq : ∀ (k pos : Nat) (b : Buf α), pos + k ≤ b.cap →
    (∀ i, pos ≤ i → i < pos + k → ∃ a, b.cells i = .live a) →
    b.destroyRange pos k = some ⟨b.cap, fun i => if pos ≤ i ∧ i < pos + k then .raw else b.cells i⟩ := by
  intro k
  induction k with
  | zero =>
    intro pos b _ _
    simp only [destroyRange, Option.some.injEq]
    ext i
    · rfl
    · simp only; rw [if_neg (by omega)]
  | succ k ih =>
    intro pos b hc hl
    obtain ⟨a, ha⟩ := hl pos (by omega) (by omega)
    simp only [destroyRange]
    rw [destroy_live (by omega) ha]
    simp only [Option.bind_eq_bind, Option.bind_some]
    rw [ih]
    · simp only [Option.some.injEq]
      ext i
      · rfl
      · simp only [Function.update_apply]
        by_cases h : i = pos
        · subst h; simp
        · by_cases h2 : pos + 1 ≤ i ∧ i < pos + 1 + k
          · rw [if_pos h2, if_pos (by omega)]
          · rw [if_neg h2, if_neg h, if_neg (by omega)]
    · simp only; omega
    · intro i h1 h2
      have : i ≠ pos := by omega
      simp only [Function.update_apply, this, if_false]
      exact hl i (by omega) (by omega)

/-! ### Buffers holding a list -/

theorem ofList_cap (n : Nat) (xs : List α) : (ofList n xs).cap = n := rfl

theorem ofList_cells (n : Nat) (xs : List α) (i : Nat) :
    (ofList n xs).cells i = match xs[i]? with | some a => .live a | none => .raw := rfl

theorem ofList_nil (n : Nat) : ofList n ([] : List α) = fresh n := by
  ext i <;> simp [ofList, fresh]

theorem ofList_live {n : Nat} {xs : List α} {i : Nat} (h : i < xs.length) :
    (ofList n xs).cells i = .live xs[i] := by
  simp [ofList_cells, h]

theorem ofList_raw {n : Nat} {xs : List α} {i : Nat} (h : xs.length ≤ i) :
    (ofList n xs).cells i = .raw := by
  simp [ofList_cells, h]

theorem ofList_read {n : Nat} {xs : List α} {i : Nat} (h : i < xs.length) (hn : xs.length ≤ n) :
    (ofList n xs).read i = some xs[i] :=
  read_live (show i < n by omega) (ofList_live h)

theorem ofList_construct {n : Nat} {xs : List α} {a : α} (h : xs.length < n) :
    (ofList n xs).construct xs.length a = some (ofList n (xs ++ [a])) := by
  rw [construct_raw h (ofList_raw (Nat.le_refl _))]
  congr 1
  ext i
  · rfl
  · simp only [Function.update_apply, ofList_cells]
    by_cases h1 : i = xs.length
    · subst h1; simp
    · simp only [h1, if_false]
      grind

theorem ofList_destroyAll {n : Nat} {xs : List α} (h : xs.length ≤ n) :
    (ofList n xs).destroyRange 0 xs.length = some (fresh n) := by
  rw [destroyRange_eq _ _ _ (by simpa [ofList_cap] using h)]
  · congr 1
    ext i
    · rfl
    · simp only [fresh]
      split
      · rfl
      · exact ofList_raw (by omega)
  · intro i _ hi
    exact ⟨xs[i]'(by omega), ofList_live (by omega)⟩

end Itlib.Buf
