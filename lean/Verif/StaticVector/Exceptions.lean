import Verif.StaticVector.StepLemmas

/-!
# `static_vector` with throwing element constructors (C47)

`s.tick = some k`: the element construction (by copy/emplace) after `k` more successful ones throws.
-/
namespace Itlib.StaticVector
open Itlib
variable {α : Type}

/-- The vector holds exactly `xs`: these are live objects in the first slots, everything else is raw. -/
def Holds (s : SV α) (xs : List α) : Prop :=
  s.size = xs.length ∧ xs.length ≤ s.buf.cap ∧ s.buf = Buf.ofList s.buf.cap xs

theorem holds_iff {s : SV α} {xs : List α} :
    Holds s xs ↔ xs.length ≤ s.buf.cap ∧ s = ⟨Buf.ofList s.buf.cap xs, xs.length, s.tick⟩ := by
  cases s
  simp only [Holds, SV.mk.injEq, and_true]
  grind

/-- operations that construct no element by copy: the outcome is that of a vector with non-throwing constructors -/
theorem onBuf_tick (f : Buf α → Option (Buf α)) (b : Buf α) (n : Nat) (t : Option Nat) :
    onBuf f ⟨b, n, t⟩ = match f b with | some b' => .ok () ⟨b', n, t⟩ | none => .ub := by
  simp only [onBuf, M.mem]
  cases f b <;> rfl

theorem holds_clear {s : SV α} {xs : List α} (h : Holds s xs) :
    ∃ s', clear s = .ok () s' ∧ Holds s' [] ∧ s'.buf.cap = s.buf.cap ∧ s'.tick = s.tick := by
  obtain ⟨hc, hs⟩ := holds_iff.mp h
  generalize s.buf.cap = cap at *
  generalize s.tick = t at *
  subst hs
  refine ⟨⟨Buf.ofList cap [], 0, t⟩, ?_, ?_, rfl, rfl⟩
  · simp only [clear, M.bind_apply, M.get_apply, onBuf_tick, Buf.ofList_destroyAll hc, M.modify_apply, Buf.ofList_nil]
  · simp [Holds, Buf.ofList]

theorem holds_shrinkAt (E : Elem α) {s : SV α} {xs : List α} {pos num : Nat} (h : Holds s xs)
    (hp : pos + num ≤ xs.length) (hn : 0 < num) :
    ∃ i s', shrinkAt E pos num s = .ok i s' ∧ Holds s' (xs.take pos ++ xs.drop (pos + num)) ∧
      s'.buf.cap = s.buf.cap ∧ s'.tick = s.tick := by
  obtain ⟨hc, hs⟩ := holds_iff.mp h
  have key := shrinkAt_rep E (cap := s.buf.cap) hp hc hn
  have hcl := clear_rep (cap := s.buf.cap) (xs := xs) hc
  generalize s.buf.cap = cap at *
  generalize s.tick = t at *
  subst hs
  have h1 : ¬ (xs.length < num) := by omega
  have h2 : pos ≤ xs.length := by omega
  refine ⟨if num = xs.length then 0 else pos, ⟨Buf.ofList cap (xs.take pos ++ xs.drop (pos + num)),
    (xs.take pos ++ xs.drop (pos + num)).length, t⟩, ?_, ?_, rfl, rfl⟩
  · simp only [shrinkAt, M.bind_apply, M.get_apply, outOfRangeIf, gt_iff_lt, h1, if_false, M.pure_apply, h2, if_true,
      clear, onBuf_tick, rep, M.modify_apply] at key ⊢
    split at key
    · rename_i h3
      have h4 : num = xs.length := by omega
      have h5 : pos = 0 := by omega
      subst h5
      simp only [h4, Nat.sub_self, if_true, M.bind_apply, M.get_apply, onBuf_tick, Buf.ofList_destroyAll hc,
        M.modify_apply, M.pure_apply]
      simp [Buf.ofList_nil]
    · rename_i h3
      simp only [h3, if_false, M.bind_apply, onBuf_tick] at key ⊢
      revert key
      cases Buf.shiftDown E.mv xs.length ((Buf.ofList cap xs).cap + 1) pos (pos + num) (Buf.ofList cap xs) with
      | none => simp
      | some b =>
        simp only [onBuf_tick]
        cases Buf.destroyRange (xs.length - num) num b with
        | none => simp
        | some b' =>
          simp only [M.modify_apply, M.pure_apply, Res.ok.injEq, SV.mk.injEq]
          rintro ⟨h6, rfl, h7, _⟩
          exact ⟨h6, rfl, h7, trivial⟩
  · refine ⟨rfl, ?_, rfl⟩
    simp [Buf.ofList_cap]; omega

/-- one construction at the end of the elements, which may throw -/
theorem holds_emplaceEnd {s : SV α} {xs : List α} {a : α} (h : Holds s xs) (hl : xs.length < s.buf.cap) :
    (∃ s', emplaceAt xs.length a s = .ok () s' ∧ Holds { s' with size := xs.length + 1 } (xs ++ [a]) ∧
      s'.buf.cap = s.buf.cap ∧ s'.size = xs.length) ∨
    (∃ s', emplaceAt xs.length a s = .throw .element s' ∧ s'.buf = s.buf ∧ s'.size = s.size ∧ s.tick = some 0) := by
  obtain ⟨hc, hs⟩ := holds_iff.mp h
  generalize s.buf.cap = cap at *
  generalize ht : s.tick = t at *
  subst hs
  simp only [emplaceAt, Buf.ofList_construct hl]
  have hH : ∀ u, Holds (⟨Buf.ofList cap (xs ++ [a]), xs.length + 1, u⟩ : SV α) (xs ++ [a]) := by
    intro u; refine ⟨by simp, ?_, rfl⟩; simp [Buf.ofList_cap]; omega
  cases t with
  | none => left; exact ⟨_, rfl, hH _, rfl, rfl⟩
  | some k =>
    cases k with
    | zero => right; exact ⟨_, rfl, rfl, rfl, rfl⟩
    | succ k => left; exact ⟨_, rfl, hH _, rfl, rfl⟩

theorem holds_readArg {s : SV α} {xs : List α} {v : Arg α} {a : α} (h : Holds s xs) (hv : Spec.argVal xs v = some a) :
    readArg v s = .ok a s := by
  obtain ⟨hc, hs⟩ := holds_iff.mp h
  cases v with
  | val b => simp [Spec.argVal] at hv; simp [readArg, hv]
  | self i =>
    simp [Spec.argVal] at hv
    obtain ⟨hi, rfl⟩ := List.getElem?_eq_some_iff.mp hv
    have : s.buf.read i = some xs[i] := by rw [h.2.2]; exact Buf.ofList_read hi hc
    simp [readArg, M.load, this]

/-- `push_back` from any state: success, or an exception and nothing changed -/
theorem holds_pushBack {s : SV α} {xs : List α} {v : Arg α} {a : α} (h : Holds s xs) (hv : Spec.argVal xs v = some a) :
    (∃ s', pushBack v s = .ok () s' ∧ Holds s' (xs ++ [a]) ∧ s'.buf.cap = s.buf.cap ∧ xs.length < s.buf.cap) ∨
    (∃ e s', pushBack v s = .throw e s' ∧ Holds s' xs ∧ s'.buf = s.buf ∧
      (e = .outOfRange ∧ s.buf.cap ≤ xs.length ∨ e = .element ∧ s.tick = some 0)) := by
  by_cases hl : xs.length < s.buf.cap
  · have h1 : ¬ (s.buf.cap ≤ s.size) := by rw [h.1]; omega
    simp only [pushBack, M.bind_apply, M.get_apply, outOfRangeIf, ge_iff_le, h1, if_false, M.pure_apply,
      holds_readArg h hv]
    rw [h.1]
    rcases holds_emplaceEnd (a := a) h hl with ⟨s', h2, h3, h4, h5⟩ | ⟨s', h2, h3, h4, h5⟩
    · left
      simp only [h2, M.modify_apply]
      exact ⟨_, rfl, by rw [h5]; exact h3, h4, hl⟩
    · right
      simp only [h2]
      exact ⟨_, _, rfl, ⟨by rw [h4]; exact h.1, by rw [h3]; exact h.2.1, by rw [h3]; exact h.2.2⟩, h3, Or.inr ⟨rfl, h5⟩⟩
  · right
    have h1 : s.buf.cap ≤ s.size := by rw [h.1]; omega
    exact ⟨.outOfRange, s, by simp [pushBack, outOfRangeIf, h1], h, rfl, Or.inl ⟨rfl, by omega⟩⟩

/-- The outcome is not undefined behaviour, and leaves (returning or throwing) a vector that holds some list of
elements in the same storage. -/
def Basic {β : Type} (s : SV α) (r : Res (SV α) β) : Prop :=
  match r with
  | .ok _ s' => (∃ ys, Holds s' ys) ∧ s'.buf.cap = s.buf.cap
  | .throw _ s' => (∃ ys, Holds s' ys) ∧ s'.buf.cap = s.buf.cap
  | .ub => False

theorem basic_bind {β γ : Type} {s : SV α} {m : M (SV α) β} {f : β → M (SV α) γ} (h : Basic s (m s))
    (hf : ∀ b s', m s = .ok b s' → (∃ ys, Holds s' ys) → s'.buf.cap = s.buf.cap → Basic s' (f b s')) :
    Basic s ((m >>= f) s) := by
  simp only [M.bind_apply]
  cases hm : m s with
  | ok b s' =>
    rw [hm] at h
    have := hf b s' hm h.1 h.2
    simp only
    revert this
    cases f b s' with
    | ok c s'' => simp only [Basic]; intro h'; exact ⟨h'.1, h'.2.trans h.2⟩
    | throw e s'' => simp only [Basic]; intro h'; exact ⟨h'.1, h'.2.trans h.2⟩
    | ub => simp [Basic]
  | throw e s' => rw [hm] at h; exact h
  | ub => rw [hm] at h; exact h

theorem basic_pushBack {s : SV α} {xs : List α} {v : Arg α} {a : α} (h : Holds s xs) (hv : Spec.argVal xs v = some a) :
    Basic s (pushBack v s) := by
  rcases holds_pushBack h hv with ⟨s', h1, h2, h3, _⟩ | ⟨e, s', h1, h2, h3, _⟩
  · rw [h1]; exact ⟨⟨_, h2⟩, h3⟩
  · rw [h1]; exact ⟨⟨_, h2⟩, by rw [h3]⟩

theorem argVal_append {xs : List α} {v : Arg α} {a : α} (hv : Spec.argVal xs v = some a) (ys : List α) :
    Spec.argVal (xs ++ ys) v = some a := by
  cases v with
  | val b => simpa [Spec.argVal] using hv
  | self i =>
    simp only [Spec.argVal] at hv ⊢
    obtain ⟨hi, rfl⟩ := List.getElem?_eq_some_iff.mp hv
    simp [List.getElem?_append_left hi]

theorem basic_pushN {v : Arg α} {a : α} : ∀ (k : Nat) (s : SV α) (xs : List α), Holds s xs →
    Spec.argVal xs v = some a → Basic s (pushN v k s) := by
  intro k
  induction k with
  | zero => intro s xs h _; exact ⟨⟨xs, h⟩, rfl⟩
  | succ k ih =>
    intro s xs h hv
    simp only [pushN]
    refine basic_bind (basic_pushBack h hv) ?_
    intro _ s' he _ _
    rcases holds_pushBack h hv with ⟨s1, h1, h2, h3, _⟩ | ⟨e, s1, h1, _⟩
    · rw [h1] at he
      simp at he; subst he
      exact ih _ _ h2 (argVal_append hv _)
    · rw [h1] at he; simp at he

theorem basic_pushAll : ∀ (ys : List α) (s : SV α) (xs : List α), Holds s xs → Basic s (pushAll ys s) := by
  intro ys
  induction ys with
  | nil => intro s xs h; exact ⟨⟨xs, h⟩, rfl⟩
  | cons y ys ih =>
    intro s xs h
    simp only [pushAll]
    refine basic_bind (basic_pushBack (a := y) h rfl) ?_
    intro _ s' he hh _
    obtain ⟨zs, hz⟩ := hh
    exact ih _ _ hz

theorem basic_clear {s : SV α} {xs : List α} (h : Holds s xs) : Basic s (clear s) := by
  obtain ⟨s', h1, h2, h3, _⟩ := holds_clear h
  rw [h1]; exact ⟨⟨_, h2⟩, h3⟩

theorem basic_outOfRangeIf {s : SV α} {xs : List α} (h : Holds s xs) (c : Prop) [Decidable c] :
    Basic s (outOfRangeIf c s) := by
  by_cases hc : c <;> simp [outOfRangeIf, hc, Basic] <;> exact ⟨xs, h⟩

theorem basic_popBack (E : Elem α) {s : SV α} {xs : List α} (h : Holds s xs) : Basic s (popBack E s) := by
  by_cases hx : xs = []
  · subst hx
    have : s.size = 0 := h.1
    simp only [popBack, M.bind_apply, M.get_apply, shrinkAt, outOfRangeIf, this, gt_iff_lt, Nat.lt_one_iff, if_true,
      M.raise_apply]
    exact ⟨⟨_, h⟩, rfl⟩
  · have : 0 < xs.length := List.length_pos_iff.mpr hx
    obtain ⟨i, s', h1, h2, h3, _⟩ := holds_shrinkAt E (pos := xs.length - 1) (num := 1) h (by omega) (by omega)
    simp only [popBack, M.bind_apply, M.get_apply, h.1, h1]
    exact ⟨⟨_, h2⟩, h3⟩

theorem holds_popBack (E : Elem α) {s : SV α} {xs : List α} (h : Holds s xs) (hx : 0 < xs.length) :
    ∃ s', popBack E s = .ok () s' ∧ Holds s' (xs.take (xs.length - 1)) ∧ s'.buf.cap = s.buf.cap := by
  obtain ⟨i, s', h1, h2, h3, _⟩ := holds_shrinkAt E (pos := xs.length - 1) (num := 1) h (by omega) (by omega)
  refine ⟨s', by simp [popBack, h.1, h1], ?_, h3⟩
  rw [show xs.length - 1 + 1 = xs.length by omega] at h2
  simpa using h2

theorem holds_popLoop (E : Elem α) (n : Nat) : ∀ (f : Nat) (s : SV α) (xs : List α), Holds s xs → xs.length ≤ n + f →
    ∃ s', popLoop E n f s = .ok () s' ∧ Holds s' (xs.take n) ∧ s'.buf.cap = s.buf.cap := by
  intro f
  induction f with
  | zero =>
    intro s xs h hf
    have h1 : ¬ (n < s.size) := by rw [h.1]; omega
    exact ⟨s, by simp [popLoop, h1], by rwa [List.take_of_length_le (by omega)], rfl⟩
  | succ f ih =>
    intro s xs h hf
    by_cases hn : n < s.size
    · obtain ⟨s1, h1, h2, h3⟩ := holds_popBack E h (by rw [← h.1]; omega)
      obtain ⟨s2, h4, h5, h6⟩ := ih s1 _ h2 (by simp; omega)
      refine ⟨s2, by simp [popLoop, hn, h1, h4], ?_, h6.trans h3⟩
      have hl := h.1
      rwa [List.take_take, Nat.min_eq_left (by omega)] at h5
    · have hl := h.1
      exact ⟨s, by simp [popLoop, hn], by rwa [List.take_of_length_le (by omega)], rfl⟩

theorem basic_pushLoop {v : Arg α} {a : α} (n : Nat) : ∀ (f : Nat) (s : SV α) (xs : List α), Holds s xs →
    n ≤ xs.length + f → (xs.length < n → Spec.argVal xs v = some a) → Basic s (pushLoop v n f s) := by
  intro f
  induction f with
  | zero =>
    intro s xs h hf _
    have h1 : ¬ (s.size < n) := by rw [h.1]; omega
    simp only [pushLoop, M.bind_apply, M.get_apply, gt_iff_lt, h1, if_false, M.pure_apply]
    exact ⟨⟨_, h⟩, rfl⟩
  | succ f ih =>
    intro s xs h hf hv
    simp only [pushLoop, M.bind_apply, M.get_apply, gt_iff_lt]
    by_cases hn : s.size < n
    · simp only [hn, if_true]
      have hv' := hv (by rw [← h.1]; exact hn)
      refine basic_bind (basic_pushBack h hv') ?_
      intro _ s' he _ _
      rcases holds_pushBack h hv' with ⟨s1, h1, h2, h3, _⟩ | ⟨e, s1, h1, _⟩
      · rw [h1] at he
        simp at he; subst he
        exact ih _ _ h2 (by simp; omega) (fun _ => argVal_append hv' _)
      · rw [h1] at he; simp at he
    · simp only [hn, if_false, M.pure_apply]
      exact ⟨⟨_, h⟩, rfl⟩

theorem basic_resizeV (E : Elem α) {s : SV α} {xs : List α} {n : Nat} {v : Arg α} {a : α} (h : Holds s xs)
    (hv : Spec.argVal xs v = some a) : Basic s (resizeV E n v s) := by
  simp only [resizeV, M.bind_apply, M.get_apply]
  by_cases hn : n > s.buf.cap
  · simp only [outOfRangeIf, hn, if_true, M.raise_apply]; exact ⟨⟨_, h⟩, rfl⟩
  · simp only [outOfRangeIf, hn, if_false, M.pure_apply]
    obtain ⟨s1, h1, h2, h3⟩ := holds_popLoop E n s.size s xs h (by rw [h.1]; omega)
    rw [h1]
    simp only
    have := basic_pushLoop (v := v) (a := a) n n s1 _ h2 (by omega) (by
      intro hl
      rw [List.take_of_length_le (by simp at hl; omega)]
      exact hv)
    revert this
    cases pushLoop v n n s1 with
    | ok b s'' => simp only [Basic]; intro h'; exact ⟨h'.1, h'.2.trans h3⟩
    | throw e s'' => simp only [Basic]; intro h'; exact ⟨h'.1, h'.2.trans h3⟩
    | ub => simp [Basic]

/-- **C47, static_vector, strong guarantee of `push_back`/`emplace_back`.** Whenever the element constructor throws (or
the vector is full), the vector and its storage are as they were. -/
theorem C47_static_vector_push_back_strong (s : SV α) (xs : List α) (v : Arg α) (a : α) (h : Holds s xs)
    (hv : Spec.argVal xs v = some a) :
    (∃ s', pushBack v s = .ok () s' ∧ Holds s' (xs ++ [a])) ∨
    (∃ e s', pushBack v s = .throw e s' ∧ Holds s' xs ∧ s'.buf = s.buf) := by
  rcases holds_pushBack h hv with ⟨s', h1, h2, _⟩ | ⟨e, s', h1, h2, h3, _⟩
  · exact Or.inl ⟨s', h1, h2⟩
  · exact Or.inr ⟨e, s', h1, h2, h3⟩

theorem holds_at {s : SV α} {xs : List α} {i : Nat} (h : Holds s xs) (hi : i < xs.length) : at_ i s = .ok xs[i] s := by
  have : s.buf.read i = some xs[i] := by rw [h.2.2]; exact Buf.ofList_read hi h.2.1
  simp [at_, h.1, hi, this]

theorem holds_assign {s : SV α} {xs : List α} {i : Nat} {a : α} (h : Holds s xs) (hi : i < xs.length) :
    ∃ s', onBuf (fun b => b.assign i a) s = .ok () s' ∧ Holds s' (xs.set i a) ∧ s'.buf.cap = s.buf.cap := by
  have h1 := ofList_assign' (a := a) hi h.2.1
  refine ⟨{ s with buf := Buf.ofList s.buf.cap (xs.set i a) }, ?_, ⟨by simp [h.1], by simpa [Buf.ofList_cap] using h.2.1, rfl⟩, rfl⟩
  rw [onBuf_eq (b := Buf.ofList s.buf.cap (xs.set i a))]
  rw [← h.2.2] at h1; exact h1

theorem holds_readUp {s : SV α} {xs : List α} (h : Holds s xs) : ∀ (k p : Nat), p + k = xs.length →
    readUp p k s = .ok (xs.drop p) s := by
  intro k
  induction k with
  | zero => intro p hp; simp [readUp, List.drop_of_length_le (show xs.length ≤ p by omega)]
  | succ k ih =>
    intro p hpk
    have hp : p < xs.length := by omega
    have hr : s.buf.read p = some xs[p] := by rw [h.2.2]; exact Buf.ofList_read hp h.2.1
    simp only [readUp, M.bind_apply, M.load, hr, ih (p+1) (by omega), M.pure_apply]
    rw [← List.drop_eq_getElem_cons hp]

theorem holds_readDown {s : SV α} {xs : List α} (h : Holds s xs) : ∀ (p : Nat), p ≤ xs.length →
    readDown p s = .ok (xs.take p).reverse s := by
  intro p
  induction p with
  | zero => intro _; simp [readDown]
  | succ p ih =>
    intro hpk
    have hp : p < xs.length := by omega
    have hr : s.buf.read p = some xs[p] := by rw [h.2.2]; exact Buf.ofList_read hp h.2.1
    simp only [readDown, M.bind_apply, M.load, hr, ih (by omega), M.pure_apply]
    rw [List.take_succ_eq_append_getElem hp, List.reverse_append, List.reverse_singleton, List.singleton_append]

/-- the calls for which the code gives at least the basic guarantee -/
def Robust (op : Op α) (xs : List α) : Prop :=
  match op with
  | .pushBack v | .emplaceBack v | .resizeV _ v => ∃ a, Spec.argVal xs v = some a
  | .assignN _ v => ∃ a, v = .val a
  | .popBack | .clear | .resize _ | .assignRange _ => True
  | .erase pos => pos < xs.length
  | .eraseRange f l => f < l ∧ l ≤ xs.length
  | .insert _ _ | .insertN _ _ _ | .insertRange _ _ => False
  | .set i v => i < xs.length ∧ ∃ a, Spec.argVal xs v = some a
  | .moveElem i j => i < xs.length ∧ j < xs.length ∧ i ≠ j
  | .get i => i < xs.length
  | .front | .back => xs ≠ []
  | .size | .isEmpty | .capacity | .forward | .backward => True

/-- **C47 (partial), static_vector.** For all calls but the insertions in the middle, wherever an element constructor
throws (`s.tick` is arbitrary): no undefined behaviour, and the vector afterwards holds some list of elements, all other
slots being raw, so that it can be used and destroyed without leaks.

Missing: `insert`/`emplace`, see `C47_defect_insert_throws`; constructors, see `C47_defect_copy_ctor_leaks`. -/
theorem C47_static_vector_basic_guarantee_partial (E : Elem α) (s : SV α) (xs : List α) (op : Op α) (h : Holds s xs)
    (hop : Robust op xs) :
    ∃ r s' ys, call E op s = some (r, s') ∧ Holds s' ys ∧ ∃ s'', dtor s' = .ok () s'' ∧ ∀ i, s''.buf.cells i = .raw := by
  have hd : ∀ s' : SV α, (∃ ys, Holds s' ys) → ∃ s'', dtor s' = .ok () s'' ∧ ∀ i, s''.buf.cells i = .raw := by
    rintro s' ⟨ys, hy⟩
    obtain ⟨s'', h1, h2, _⟩ := holds_clear hy
    refine ⟨s'', h1, fun i => ?_⟩
    rw [h2.2.2]; simp [Buf.ofList]
  suffices hb : Basic s (exec E op s) by
    simp only [call]
    revert hb
    cases exec E op s with
    | ok r s' => rintro ⟨⟨ys, hy⟩, _⟩; exact ⟨_, _, ys, rfl, hy, hd _ ⟨ys, hy⟩⟩
    | throw e s' => rintro ⟨⟨ys, hy⟩, _⟩; exact ⟨_, _, ys, rfl, hy, hd _ ⟨ys, hy⟩⟩
    | ub => intro h; exact h.elim
  have hret : ∀ (r : Reply α) (m : M (SV α) Unit), Basic s (m s) → Basic s ((do m; pure r : M (SV α) (Reply α)) s) := by
    intro r m hm
    refine basic_bind hm ?_
    intro _ s' _ hh _
    exact ⟨hh, rfl⟩
  cases op with
  | pushBack v => obtain ⟨a, ha⟩ := hop; exact hret _ _ (basic_pushBack h ha)
  | emplaceBack v =>
    obtain ⟨a, ha⟩ := hop
    have hp := holds_pushBack h ha
    simp only [pushBack, M.bind_apply, M.get_apply] at hp
    simp only [exec, emplaceBack, M.bind_apply, M.get_apply]
    revert hp
    cases outOfRangeIf (s.size ≥ s.buf.cap) s with
    | throw e s1 =>
      simp only
      rintro (⟨s', h1, _⟩ | ⟨e, s', h1, h2, h3, _⟩)
      · simp at h1
      · simp at h1; obtain ⟨rfl, rfl⟩ := h1; exact ⟨⟨_, h2⟩, by rw [h3]⟩
    | ub => simp
    | ok _ s1 =>
      simp only
      cases readArg v s1 with
      | throw e s1 =>
        simp only
        rintro (⟨s', h1, _⟩ | ⟨e, s', h1, h2, h3, _⟩)
        · simp at h1
        · simp at h1; obtain ⟨rfl, rfl⟩ := h1; exact ⟨⟨_, h2⟩, by rw [h3]⟩
      | ub => simp
      | ok b s2 =>
        simp only
        cases emplaceAt s.size b s2 with
        | throw e s1 =>
          simp only
          rintro (⟨s', h1, _⟩ | ⟨e, s', h1, h2, h3, _⟩)
          · simp at h1
          · simp at h1; obtain ⟨rfl, rfl⟩ := h1; exact ⟨⟨_, h2⟩, by rw [h3]⟩
        | ub => simp
        | ok _ s3 =>
          simp only [M.modify_apply]
          rintro (⟨s', h1, h2, h3, _⟩ | ⟨e, s', h1, _⟩)
          · simp at h1
            subst h1
            have hb : ∀ s' : SV α, Holds s' (xs ++ [a]) → ∃ c, back s' = .ok c s' := by
              intro s' hs'
              have e1 := hs'.1
              simp at e1
              have hr : s'.buf.read xs.length = some ((xs ++ [a])[xs.length]'(by simp)) := by
                rw [hs'.2.2]; exact Buf.ofList_read (by simp) hs'.2.1
              exact ⟨_, by simp [back, at_, e1, hr]; rfl⟩
            obtain ⟨c, hc⟩ := hb _ h2
            simp only [hc, M.pure_apply]
            exact ⟨⟨_, h2⟩, h3⟩
          · simp at h1
  | popBack => exact hret _ _ (basic_popBack E h)
  | insert pos v => exact hop.elim
  | insertN pos n v => exact hop.elim
  | insertRange pos ys => exact hop.elim
  | erase pos =>
    obtain ⟨i, s', h1, h2, h3, _⟩ := holds_shrinkAt E (pos := pos) (num := 1) h (by simp only [Robust] at hop; omega) (by omega)
    simp only [exec, erase, M.bind_apply, h1]
    exact ⟨⟨_, h2⟩, h3⟩
  | eraseRange f l =>
    obtain ⟨hfl, hl⟩ := hop
    obtain ⟨i, s', h1, h2, h3, _⟩ := holds_shrinkAt E (pos := f) (num := l - f) h (by omega) (by omega)
    simp only [exec, eraseRange, show f ≤ l by omega, if_true, M.bind_apply, h1]
    exact ⟨⟨_, h2⟩, h3⟩
  | clear => exact hret _ _ (basic_clear h)
  | resize n => exact hret _ _ (basic_resizeV E (v := .val E.dflt) (a := E.dflt) h rfl)
  | resizeV n v => obtain ⟨a, ha⟩ := hop; exact hret _ _ (basic_resizeV E h ha)
  | assignN n v =>
    obtain ⟨a, rfl⟩ := hop
    refine hret _ _ ?_
    simp only [assignN]
    refine basic_bind (basic_clear h) ?_
    rintro _ s' _ ⟨ys, hy⟩ _
    simp only [assignImplVal, M.bind_apply, M.get_apply]
    refine basic_bind (m := outOfRangeIf (n > s'.buf.cap)) (f := fun _ => pushN (.val a) n) (basic_outOfRangeIf hy _) ?_
    rintro _ s2 _ ⟨zs, hz⟩ _
    exact basic_pushN (a := a) n s2 zs hz rfl
  | assignRange ys =>
    refine hret _ _ ?_
    simp only [assignRange]
    refine basic_bind (basic_clear h) ?_
    rintro _ s' _ ⟨zs, hz⟩ _
    simp only [assignImplRange, M.bind_apply, M.get_apply]
    refine basic_bind (m := outOfRangeIf (ys.length > s'.buf.cap)) (f := fun _ => pushAll ys) (basic_outOfRangeIf hz _) ?_
    rintro _ s2 _ ⟨ws, hw⟩ _
    exact basic_pushAll ys s2 ws hw
  | set i v =>
    obtain ⟨hi, a, ha⟩ := hop
    obtain ⟨s', h1, h2, h3⟩ := holds_assign (a := a) h hi
    simp only [exec, setAt, M.bind_apply, holds_readArg h ha, holds_at h hi, h1, M.pure_apply]
    exact ⟨⟨_, h2⟩, h3⟩
  | moveElem i j =>
    obtain ⟨hi, hj, hij⟩ := hop
    obtain ⟨s', h1, h2, h3⟩ := holds_assign (a := xs[j]) h hi
    obtain ⟨s'', h4, h5, h6⟩ := holds_assign (i := j) (a := E.mv xs[j]) h2 (by simpa using hj)
    simp only [exec, moveElem, M.bind_apply, holds_at h hi, holds_at h hj, hij, if_false, h1, h4, M.pure_apply]
    exact ⟨⟨_, h5⟩, h6.trans h3⟩
  | get i =>
    simp only [exec, M.bind_apply, holds_at h hop, M.pure_apply]
    exact ⟨⟨_, h⟩, rfl⟩
  | front =>
    simp only [exec, front, M.bind_apply, holds_at h (List.length_pos_iff.mpr hop), M.pure_apply]
    exact ⟨⟨_, h⟩, rfl⟩
  | back =>
    have hl := List.length_pos_iff.mpr hop
    simp only [exec, back, M.bind_apply, h.1, show ¬ xs.length = 0 by omega, if_false,
      holds_at h (show xs.length - 1 < xs.length by omega), M.pure_apply]
    exact ⟨⟨_, h⟩, rfl⟩
  | size => exact ⟨⟨_, h⟩, rfl⟩
  | isEmpty => exact ⟨⟨_, h⟩, rfl⟩
  | capacity => exact ⟨⟨_, h⟩, rfl⟩
  | forward =>
    simp only [exec, forward, M.bind_apply, M.get_apply, h.1, holds_readUp h xs.length 0 (by omega), M.pure_apply]
    exact ⟨⟨_, h⟩, rfl⟩
  | backward =>
    simp only [exec, backward, M.bind_apply, M.get_apply, h.1, holds_readDown h xs.length (by omega), M.pure_apply]
    exact ⟨⟨_, h⟩, rfl⟩

/-- a full-size example: the third construction of a `resize` throws, two new elements were made -/
example : Holds (⟨Buf.ofList 8 [1, 2], 2, some 2⟩ : SV Nat) [1, 2] ∧ Robust (.resize 7) [1, 2] ∧
    ∃ s', call ⟨id, 0⟩ (.resize 7) (⟨Buf.ofList 8 [1, 2], 2, some 2⟩ : SV Nat) = some (.exc .element, s') ∧ s'.size = 4 :=
  ⟨⟨rfl, by decide, rfl⟩, trivial, _, rfl, rfl⟩

/-- Defect: if the element constructor throws during `insert` (anywhere, also at the end), the vector counts an element
that does not exist: destroying it has undefined behaviour. -/
theorem C47_defect_insert_throws (E : Elem α) (cap : Nat) (xs : List α) (pos : Nat) (a : α) (hp : pos ≤ xs.length)
    (hc : xs.length < cap) (hcap : cap < 2 ^ 63) :
    ∃ s', insert E pos (.val a) ⟨Buf.ofList cap xs, xs.length, some 0⟩ = .throw .element s' ∧ dtor s' = .ub := by
  have hcap' : cap < sizeMod := by simp only [sizeMod]; omega
  have key := growAt_rep E (n := 1) hp hc hcap'
  have h1 : ¬ (cap < (xs.length + 1) % sizeMod) := by
    rw [Nat.mod_eq_of_lt (by omega)]; omega
  have hg : growAt E pos 1 ⟨Buf.ofList cap xs, xs.length, some 0⟩ = .ok pos ⟨gap cap xs pos 1, xs.length + 1, some 0⟩ := by
    simp only [growAt, M.bind_apply, M.get_apply, rep_size, rep_cap, outOfRangeIf, gt_iff_lt, Buf.ofList_cap, h1, if_false,
      M.pure_apply, hp, if_true, Nat.one_ne_zero, onBuf_tick, rep] at key ⊢
    revert key
    cases Buf.shiftUp E.mv 1 pos (xs.length - pos) (Buf.ofList cap xs) with
    | none => simp
    | some b => simp
  have hcon : (gap cap xs pos 1).construct pos a = some ⟨cap, Function.update (gap cap xs pos 1).cells pos (.live a)⟩ :=
    Buf.construct_raw (by simp only [gap]; omega) (by simp [gap])
  refine ⟨⟨gap cap xs pos 1, xs.length + 1, none⟩, ?_, ?_⟩
  · simp only [insert, M.bind_apply, hg, readArg, M.pure_apply, emplaceAt, hcon]
  · have : ∀ (k p : Nat) (b : Buf α), p ≤ pos → pos < p + k → b.cells pos = .raw → b.destroyRange p k = none := by
      intro k
      induction k with
      | zero => intro p b h1 h2; omega
      | succ k ih =>
        intro p b h1 h2 h3
        simp only [Buf.destroyRange, Buf.destroy]
        by_cases hpb : p < b.cap
        · simp only [hpb, if_true]
          by_cases hpp : p = pos
          · subst hpp; simp [h3]
          · cases b.cells p with
            | raw => simp
            | live c =>
              simp only [Option.bind_eq_bind, Option.bind_some]
              exact ih _ _ (by omega) (by omega) (by simp [Function.update_of_ne (Ne.symm hpp), h3])
        · simp [hpb]
    have h2 := this (xs.length + 1) 0 (gap cap xs pos 1) (by omega) (by omega) (by simp [gap])
    simp [dtor, clear, onBuf_tick, h2]

/-- the copying loop into a vector that holds the first `k` elements already, when the construction after `f` more throws -/
theorem copyFromLoop_throws {i j c cap : Nat} {xs : List α} (hij : i ≠ j) (hj : xs.length ≤ c) (hl : xs.length ≤ cap) :
    ∀ (f m k : Nat) (st : Store α), k + f < xs.length → k + m = xs.length → st.vec j = some (rep c xs) →
      st.vec i = some ⟨Buf.ofList cap (xs.take k), k, some f⟩ →
      copyFromLoop i j k m st = .throw .element (st.put i (some ⟨Buf.ofList cap (xs.take (k + f)), k + f, none⟩)) := by
  intro f
  induction f with
  | zero =>
    intro m k st hk hm hs hd
    obtain ⟨m, rfl⟩ : ∃ n, m = n + 1 := ⟨m - 1, by omega⟩
    have hcon := Buf.ofList_construct (n := cap) (xs := xs.take k) (a := xs[k]) (by simp; omega)
    rw [show (xs.take k).length = k by simp; omega] at hcon
    have hp : pushBack (.val xs[k]) (⟨Buf.ofList cap (xs.take k), k, some 0⟩ : SV α) =
        .throw .element ⟨Buf.ofList cap (xs.take k), k, none⟩ := by
      simp [pushBack, outOfRangeIf, Buf.ofList_cap, show ¬ cap ≤ k by omega, readArg, emplaceAt, hcon]
    simp only [copyFromLoop, M.bind_apply, at'_read hs (at_rep (show k < xs.length by omega) hj)]
    simp only [at', hd, hp, Nat.add_zero]
  | succ f ih =>
    intro m k st hk hm hs hd
    obtain ⟨m, rfl⟩ : ∃ n, m = n + 1 := ⟨m - 1, by omega⟩
    have hcon := Buf.ofList_construct (n := cap) (xs := xs.take k) (a := xs[k]) (by simp; omega)
    rw [show (xs.take k).length = k by simp; omega] at hcon
    have hp : pushBack (.val xs[k]) (⟨Buf.ofList cap (xs.take k), k, some (f + 1)⟩ : SV α) =
        .ok () ⟨Buf.ofList cap (xs.take (k + 1)), k + 1, some f⟩ := by
      rw [List.take_succ_eq_append_getElem (show k < xs.length by omega)]
      simp [pushBack, outOfRangeIf, Buf.ofList_cap, show ¬ cap ≤ k by omega, readArg, emplaceAt, hcon]
    simp only [copyFromLoop, M.bind_apply, at'_read hs (at_rep (show k < xs.length by omega) hj)]
    simp only [at'_ok hd hp]
    rw [ih m (k + 1) _ (by omega) (by omega) (by rw [put_vec_ne _ _ (Ne.symm hij)]; exact hs) (put_vec_self _ _ _), put_put]
    rw [show k + 1 + f = k + (f + 1) by omega]

/-- Defect: whenever copying an element throws in the copy constructor, at any element `k`, the `k` elements copied before
are never destroyed (the destructor of a vector whose constructor throws does not run): the storage goes away with exactly
these alive in it. -/
theorem C47_defect_copy_ctor_leaks (st : Store α) (i j c cap k : Nat) (xs : List α) (hi : st.vec i = none)
    (hj : st.vec j = some (rep c xs)) (hc : xs.length ≤ c) (hcap : xs.length ≤ cap) (hk : k < xs.length) :
    ∃ st', copyCtor i cap j (some k) st = .throw .element st' ∧ st'.vec = st.vec ∧
      st'.graves = Buf.ofList cap (xs.take k) :: st.graves ∧ ∀ p (h : p < k), (Buf.ofList cap (xs.take k)).cells p = .live xs[p] := by
  have hij : i ≠ j := by rintro rfl; simp [hi] at hj
  have h1 : (empty cap (some k) : SV α) = ⟨Buf.ofList cap (xs.take 0), 0, some k⟩ := by simp [empty, Buf.ofList_nil]
  have h2 := copyFromLoop_throws (st := st.put i (some (empty cap (some k)))) hij hc hcap k xs.length 0
    (by omega) (by omega) (by rw [put_vec_ne _ _ (Ne.symm hij)]; exact hj) (by rw [put_vec_self, h1])
  refine ⟨⟨st.vec, Buf.ofList cap (xs.take k) :: st.graves⟩, ?_, rfl, rfl, ?_⟩
  · have h3 : at' j (do let s ← M.get; pure s.size) (st.put i (some (empty cap (some k)))) =
        .ok xs.length (st.put i (some (empty cap (some k)))) :=
      at'_read (by rw [put_vec_ne _ _ (Ne.symm hij)]; exact hj) (by simp)
    simp only [copyCtor, M.bind_apply, construct, hi, ctorBody, h3, show ¬ (xs.length > cap) by omega, if_false, h2, put_put,
      Nat.zero_add, bury, put_vec_self]
    simp only [Store.put, Function.update_idem, Res.throw.injEq, Store.mk.injEq, and_true, true_and]
    rw [← hi, Function.update_eq_self]
  · intro p hp
    rw [Buf.ofList_live (by simp; omega)]
    simp

end Itlib.StaticVector
