import Verif.FlatOver.ThrowLemmas
import Verif.FlatOver.Instances

/-!
# Properties of `flat_map` and `flat_set` with user code that throws (C66)

`key` is the projection of elements to keys: `Prod.fst` for `flat_map`, `id` for `flat_set`.
-/
namespace Itlib.FlatOver.T
open Itlib Itlib.Flat M
variable {σ κ ε : Type} {key : ε → κ} {C : Cont σ ε} {cap : Option Nat} {sw : Bool} {rep : Conts ε → σ → Prop}

theorem step_exc {lt : κ → κ → Bool} {op : Op κ ε} {s : List ε} {e : Exc} (h : (Spec.step key cap lt op s).1 = .exc e) :
    (Spec.step key cap lt op s).2 = s := by
  cases op <;> simp only [Spec.step] at h ⊢ <;> (try split at h) <;> (try split at h) <;> simp_all

theorem mstep_exc {op : MOp κ ε} {y : Spec.Sys κ ε} {e : Exc} (h : (Spec.mstep key cap op y).1 = .exc e) :
    (Spec.mstep key cap op y).2 = y := by
  cases op with
  | on i op =>
    simp only [Spec.mstep] at h ⊢
    cases hy : y i with
    | none => simp [hy] at h
    | some a =>
      simp only [hy] at h ⊢
      rw [step_exc h, ← hy, Function.update_eq_self]
  | build i lt ys sorted =>
    simp only [Spec.mstep] at h ⊢
    split at h
    · simp at h
    · rename_i hf; simp [hf]
  | _ => simp [Spec.mstep] at h

theorem next_whole {op : TOp κ ε} {y : Spec.Sys κ ε} {r : Reply ε} (h : r = (Spec.mstep key cap (Spec.whole op) y).1) :
    Spec.next key cap op r y = (Spec.mstep key cap (Spec.whole op) y).2 := by
  simp only [Spec.next]
  split
  · exact (mstep_exc h.symm).symm
  · rfl

variable [DecidableEq ε]

theorem on_relift {β : Type} {f : M (TMem σ) β} {g : M σ β} {q : β → Reply ε} {l l' : Option Nat} {lts : Nat → Option (κ → κ → Bool)}
    {m : Mem σ κ} (h : f ⟨m.mem, l⟩ = relift l' (g m.mem)) : on f q l lts m = FlatOver.on g q lts m := by
  simp only [on, FlatOver.on, h]
  cases g m.mem <;> rfl

theorem whole_step (hC : Refines C cap sw rep) {st : Flat.Store κ ε} {y : Spec.Sys κ ε} {m : Mem σ κ} {op : TOp κ ε}
    (hm : MRel rep st m) (hR : Rel key st y) (hp : Spec.MPre key (Spec.whole op) y) (hsw : sw = true ∨ ∀ i j, Spec.whole op ≠ .swap i j)
    (h : tcall key C op m = mcall key C (Spec.whole op) m) :
    ∃ m' st', tcall key C op m = some ((Spec.mstep key cap (Spec.whole op) y).1, m') ∧ MRel rep st' m' ∧
      Rel key st' (Spec.next key cap op (Spec.mstep key cap (Spec.whole op) y).1 y) := by
  obtain ⟨st1, h1, h2⟩ := mcall_rel (cap := cap) hR _ hp
  obtain ⟨m1, h3, h4⟩ := mcall_sim hC hm hR hp hsw h1
  exact ⟨m1, st1, by rw [h, h3], h4, by rw [next_whole rfl]; exact h2⟩

theorem tcall_step (hC : Refines C cap sw rep) {st : Flat.Store κ ε} {y : Spec.Sys κ ε} {m : Mem σ κ} {op : TOp κ ε}
    (hm : MRel rep st m) (hR : Rel key st y) (hp : Spec.TPre key op y) (hg : Spec.Guard op y)
    (hsw : sw = true ∨ ∀ i j, Spec.whole op ≠ .swap i j) :
    ∃ r m' st', tcall key C op m = some (r, m') ∧ Spec.Allowed key cap op y r ∧ MRel rep st' m' ∧ Rel key st' (Spec.next key cap op r y) := by
  have hnone : ∀ {i}, y i = none → conts st (2 * i) = none := by
    intro i hi; rw [conts_even, hR.none hi]; rfl
  cases op with
  | call op left =>
    have plain : tcall key C (.call op left) m = mcall key C op m →
        ∃ r m' st', tcall key C (.call op left) m = some (r, m') ∧ Spec.Allowed key cap (.call op left) y r ∧ MRel rep st' m' ∧
          Rel key st' (Spec.next key cap (.call op left) r y) := fun h => by
      obtain ⟨m', st', h1, h2, h3⟩ := whole_step (op := .call op left) hC hm hR hp hsw h
      exact ⟨_, m', st', h1, .inl rfl, h2, h3⟩
    cases op with
    | on i op =>
      obtain ⟨a, ha, _⟩ := hp
      obtain ⟨xs, hx, _⟩ := hR.some ha
      have hc : conts st (2 * i) = some xs := by rw [conts_even, hx]; rfl
      cases hcmp : Spec.compares op with
      | false =>
        refine plain (on_relift (l' := left) ?_)
        cases op <;> first | (simp [Spec.compares] at hcmp; done) | exact act_eq ..
      | true =>
        rcases exec_clean (key := key) hC hm.mem hc op left with ⟨h1, l', h2⟩ | ⟨l', h1, h2⟩
        · refine ⟨.exc .user, m, st, by simp only [tcall, on, h2], .inr ⟨?_, rfl⟩, hm, hR⟩
          cases left with
          | none => exact absurd rfl h1
          | some n => exact hcmp
        · exact plain (on_relift h2)
    | build i lt ys sorted =>
      obtain ⟨hi, _, hperm, _⟩ := id hp
      cases hf : Spec.fits cap ys.length with
      | true =>
        rcases ofContainer_clean (key := key) hC lt (c := 2 * i) (t := 2 * i + 1) (by omega) hperm.length_eq hm.mem (hnone hi) (conts_odd _ _) hf left with
          ⟨h1, t, h2, h3⟩ | ⟨t, h2, h3⟩
        · refine ⟨.exc .user, ⟨t.mem, m.lt⟩, st, by simp only [tcall, on, h2], .inr ⟨?_, rfl⟩, ⟨hm.lt, h3⟩, hR⟩
          cases left with
          | none => exact absurd rfl h1
          | some n => rfl
        · obtain ⟨st1, k1, k2⟩ := mcall_rel (cap := cap) hR (.build i lt ys sorted) hp
          have hr : (Spec.mstep key cap (.build i lt ys sorted) y).1 = .unit := by simp [Spec.mstep, hf]
          have hst : st1 = Function.update st i (some (Flat.ofContainer key lt sorted)) := by
            simp only [Flat.mcall, tooMany_eq, hf, Bool.not_true, Bool.false_eq_true, if_false, Option.some.injEq, Prod.mk.injEq] at k1
            exact k1.2.symm
          refine ⟨.unit, ⟨t.mem, Function.update m.lt i (some lt)⟩, st1, by simp only [tcall, on, h2], .inl hr.symm, ?_, ?_⟩
          · rw [hst]; exact hm.put rfl h3
          · rw [next_whole hr.symm]; exact k2
      | false =>
        obtain ⟨t, h1, h2⟩ := ofContainer_full (key := key) hC lt (c := 2 * i) (sort := (sorted, false)) hm.mem (conts_odd st i) hf left
        refine ⟨.exc .outOfRange, ⟨t.mem, m.lt⟩, st, by simp only [tcall, on, h1], .inl ?_, ⟨hm.lt, h2⟩, hR⟩
        simp [Spec.whole, Spec.mstep, hf]
    | _ => exact plain rfl
  | emplace i k e left =>
    obtain ⟨a, ha, hk⟩ := id hp
    obtain ⟨xs, hx, _⟩ := hR.some ha
    have hc : conts st (2 * i) = some xs := by rw [conts_even, hx]; rfl
    have hcl : Clean (emplace key C (2 * i) k e) (FlatOver.insert key C (2 * i) k e) m.mem := Clean.user (insert_clean hC hm.mem hc k e)
    rcases hcl left with ⟨h1, l', h2⟩ | ⟨l', h1, h2⟩
    · refine ⟨.exc .user, m, st, by simp only [tcall, on, h2], .inr ⟨?_, rfl⟩, hm, hR⟩
      cases left with
      | none => exact absurd rfl h1
      | some n => rfl
    · have heq : tcall key C (.emplace i k e left) m = mcall key C (.on i (.insert k e)) m := by
        simp only [tcall, on_relift h2, mcall, FlatOver.on, FlatOver.exec, bind_apply]
        cases FlatOver.insert key C (2 * i) k e m.mem <;> rfl
      obtain ⟨m', st', h3, h4, h5⟩ := whole_step (op := .emplace i k e left) hC hm hR hp hsw heq
      exact ⟨_, m', st', h3, .inl rfl, h4, h5⟩
  | buildSort i lt ys zs =>
    obtain ⟨hi, _, hl⟩ := hp
    cases hf : Spec.fits cap ys.length with
    | true =>
      obtain ⟨t, h2, h3⟩ := ofContainer_sort (key := key) hC lt (c := 2 * i) (t := 2 * i + 1) (by omega) hl hm.mem (hnone hi) (conts_odd _ _) hf none
      exact ⟨.exc .user, ⟨t.mem, m.lt⟩, st, by simp only [tcall, on, h2], by simp [Spec.Allowed, hf], ⟨hm.lt, h3⟩, hR⟩
    | false =>
      obtain ⟨t, h1, h2⟩ := ofContainer_full (key := key) hC lt (c := 2 * i) (sort := (zs, true)) hm.mem (conts_odd st i) hf none
      exact ⟨.exc .outOfRange, ⟨t.mem, m.lt⟩, st, by simp only [tcall, on, h1], by simp [Spec.Allowed, hf], ⟨hm.lt, h2⟩, hR⟩
  | assignFails i src =>
    obtain ⟨hi, hs⟩ := hp
    obtain ⟨a, ha⟩ := Option.isSome_iff_exists.mp hi
    obtain ⟨b, hb⟩ := Option.isSome_iff_exists.mp hs
    obtain ⟨xs, hx, _⟩ := hR.some ha
    obtain ⟨zs, hz, _⟩ := hR.some hb
    simp only [Spec.Guard, ha, hb, Option.map_some, Option.some.injEq] at hg
    refine ⟨.exc .badAlloc, _, st, rfl, rfl, ⟨?_, hm.mem⟩, hR⟩
    intro j
    by_cases hj : j = i
    · subst hj; simp [hm.lt, hx, hz, hg]
    · simp [hj, hm.lt]

theorem reached_rel (hC : Refines C cap sw rep) {s : σ} (hs : rep (fun _ => none) s) {m : Mem σ κ} {y : Spec.Sys κ ε}
    (h : Reached key C cap sw s m y) : ∃ st, MRel rep st m ∧ Rel key st y := by
  induction h with
  | start =>
    refine ⟨fun _ => none, ⟨fun _ => rfl, ?_⟩, by intro i; trivial⟩
    have : conts (fun _ => none : Flat.Store κ ε) = fun _ => none := by funext n; simp [conts]
    rw [this]; exact hs
  | step hr hp hg hsw hc ih =>
    obtain ⟨st, hm, hR⟩ := ih
    obtain ⟨r, m', st', h1, _, h3, h4⟩ := tcall_step hC hm hR hp hg hsw
    rw [hc] at h1
    simp only [Option.some.injEq, Prod.mk.injEq] at h1
    obtain ⟨rfl, rfl⟩ := h1
    exact ⟨st', h3, h4⟩

/-- the contents of the maps, as read from their containers -/
def Contents (key : ε → κ) (C : Cont σ ε) (m : Mem σ κ) (y : Spec.Sys κ ε) : Prop :=
  ∀ i a, y i = some a → m.lt i = some a.lt ∧ ∃ xs : List ε, C.size (2 * i) m.mem = .ok xs.length m.mem ∧ xs.Perm a.entries ∧
    (xs.Pairwise fun x y => a.lt (key x) (key y) = true) ∧ ∀ p (h : p < xs.length), C.get (2 * i) p m.mem = .ok xs[p] m.mem

/-- **C66.** Any program, for any container that behaves like sequences, user code throwing anywhere: in every state that is reached each map
has exactly the entries of the abstract map, in order; and any next call has no undefined behaviour, and has its whole effect and answer, or it
throws, which it does only if user code throws, and has no effect (`Spec.next`). -/
theorem C66_user_exceptions_partial (hC : Refines C cap sw rep) {s : σ} (hs : rep (fun _ => none) s) {m : Mem σ κ} {y : Spec.Sys κ ε}
    (h : Reached key C cap sw s m y) : Contents key C m y ∧ ∀ op, Spec.TPre key op y → Spec.Guard op y →
      (sw = true ∨ ∀ i j, Spec.whole op ≠ .swap i j) → ∃ r m', tcall key C op m = some (r, m') ∧ Spec.Allowed key cap op y r := by
  obtain ⟨st, hm, hR⟩ := reached_rel hC hs h
  refine ⟨?_, fun op hp hg hsw => ?_⟩
  · intro i a ha
    obtain ⟨xs, hx, _, hsort, hperm⟩ := hR.some ha
    have hc : conts st (2 * i) = some xs := by rw [conts_even, hx]; rfl
    exact ⟨by rw [hm.lt, hx]; rfl, xs, hC.size hm.mem hc, hperm, hsort, fun p hp => hC.get hm.mem hc hp⟩
  · obtain ⟨r, m', _, h1, h2, _⟩ := tcall_step hC hm hR hp hg hsw
    exact ⟨r, m', h1, h2⟩

theorem stdVector_refines (E : Elem ε) : Refines (stdVector E) none true fun y s => s = y where
  len := by intros; rfl
  ctor := by rintro y s i rfl hi; exact ⟨_, by simp [stdVector, M.mem, hi], rfl⟩
  ctorRange := by rintro y s i xs rfl hi _; exact ⟨_, by simp [stdVector, M.mem, hi], rfl⟩
  ctorRange_full := by rintro y s i xs rfl hi hf; simp [Spec.fits] at hf
  copyCtor := by rintro y s i j xs rfl hi hj; exact ⟨_, by simp [stdVector, M.mem, hi, hj], rfl⟩
  moveCtor := by rintro y s i j xs rfl hi hj; exact ⟨_, by simp [stdVector, M.mem, hi, hj], rfl⟩
  copyAssign := by rintro y s i j zs xs rfl hi hj; exact ⟨_, by simp [stdVector, M.mem, hi, hj], rfl⟩
  moveAssign := by rintro y s i j zs xs rfl hi hj hij; exact ⟨_, by simp [stdVector, M.mem, hi, hj, hij], rfl⟩
  swap := by rintro _ y s i j zs xs rfl hi hj; exact ⟨_, by simp [stdVector, M.mem, hi, hj], rfl⟩
  dtor := by rintro y s i xs rfl hi; exact ⟨_, by simp [stdVector, M.mem, hi], rfl⟩
  size := by rintro y s i xs rfl hi; simp [stdVector, M.load, hi]
  get := by rintro y s i xs p rfl hi hp; simp [stdVector, M.load, hi, hp]
  set := by rintro y s i xs p e rfl hi hp; exact ⟨_, by simp [stdVector, M.mem, hi, hp], rfl⟩
  moveElem := by rintro y s i xs p q rfl hi hp hq hpq; exact ⟨_, E.mv xs[q], by simp [stdVector, M.mem, hi, hp, hq], rfl⟩
  emplace := by rintro y s i xs p e rfl hi hp _; exact ⟨_, by simp [stdVector, hi, hp], rfl⟩
  emplace_full := by rintro y s i xs p e rfl hi hp h; simp at h
  erase := by rintro y s i xs p rfl hi hp; exact ⟨_, by simp [stdVector, hi, hp], rfl⟩
  eraseToEnd := by rintro y s i xs p rfl hi hp; exact ⟨_, by simp [stdVector, hi, hp], rfl⟩
  clear := by rintro y s i xs rfl hi; exact ⟨_, by simp [stdVector, M.mem, hi], rfl⟩
  eq := by rintro y s i j xs zs eqv rfl hi hj; simp [stdVector, M.load, hi, hj]

/-- **C66, `std::vector`.** -/
theorem C66_user_exceptions_std_vector_partial (E : Elem ε) {m : Mem (Nat → Option (List ε)) κ} {y : Spec.Sys κ ε}
    (h : Reached key (stdVector E) none true (fun _ => none) m y) : Contents key (stdVector E) m y ∧ ∀ op, Spec.TPre key op y → Spec.Guard op y →
      ∃ r m', tcall key (stdVector E) op m = some (r, m') ∧ Spec.Allowed key none op y r := by
  have := C66_user_exceptions_partial (stdVector_refines E) rfl h
  exact ⟨this.1, fun op hp hg => this.2 op hp hg (.inl rfl)⟩

/-- **C66, `static_vector`.** Besides, no container object is left by constructors that throw, and no storage of destroyed ones holds a live
object. -/
theorem C66_user_exceptions_static_vector_partial (E : Elem ε) (c : Nat) (hc : c < 2 ^ 63) {m : Mem (StaticVector.Store ε) κ} {y : Spec.Sys κ ε}
    (h : Reached key (staticVector E c) (some c) true StaticVector.Store.init m y) :
    (Contents key (staticVector E c) m y ∧ ∀ op, Spec.TPre key op y → Spec.Guard op y →
      ∃ r m', tcall key (staticVector E c) op m = some (r, m') ∧ Spec.Allowed key (some c) op y r) ∧
    (∀ n, (∀ i a, y i = some a → n ≠ 2 * i) → m.mem.vec n = none) ∧ ∀ b ∈ m.mem.graves, ∀ p, b.cells p = .raw := by
  have h0 : SV.Holds c (fun _ => none) (StaticVector.Store.init : StaticVector.Store ε) :=
    ⟨[], by intro b hb; simp at hb, by intro i c xs h; simp [SV.lift] at h, rfl⟩
  have := C66_user_exceptions_partial (SV.refines E hc) h0 h
  refine ⟨⟨this.1, fun op hp hg => this.2 op hp hg (.inl rfl)⟩, ?_⟩
  obtain ⟨st, ⟨_, g, hg, hG, hm⟩, hR⟩ := reached_rel (SV.refines E hc) h0 h
  refine ⟨fun n hn => ?_, by rw [hm]; exact hg⟩
  rw [hm]
  refine StaticVector.mrep_vec_none (SV.lift_none ?_)
  simp only [conts]
  split
  · rename_i h2
    cases hi : y (n / 2) with
    | none => rw [hR.none hi]; rfl
    | some a => exact absurd (show n = 2 * (n / 2) by omega) (hn _ a hi)
  · rfl

/-- **C66, `small_vector`.** Besides, when no map is left nothing is allocated, whatever constructors threw. -/
theorem C66_user_exceptions_small_vector_partial (P : SmallVector.Params) (hN : 0 < P.N) (hR : P.R ≤ P.N + 1) (E : Elem ε) (al : Nat)
    {m : Mem (SmallVector.Mem ε) κ} {y : Spec.Sys κ ε} (h : Reached key (smallVector P E al) none false SmallVector.Mem.init m y) :
    (Contents key (smallVector P E al) m y ∧ ∀ op, Spec.TPre key op y → Spec.Guard op y → (∀ i j, Spec.whole op ≠ .swap i j) →
      ∃ r m', tcall key (smallVector P E al) op m = some (r, m') ∧ Spec.Allowed key none op y r) ∧
    SmallVector.Clean m.mem ∧ ((∀ i, y i = none) → ∀ k, m.mem.heap k = none) := by
  have h0 : SmV.Holds P (fun _ => none) (SmallVector.Mem.init : SmallVector.Mem ε) :=
    ⟨fun _ => none, fun _ => 0, SmallVector.init_mrep P, fun _ => rfl⟩
  have hC := SmV.refines hN hR E al
  have := C66_user_exceptions_partial hC h0 h
  refine ⟨⟨this.1, fun op hp hg hsw => this.2 op hp hg (.inr hsw)⟩, ?_⟩
  obtain ⟨st, ⟨_, Y, blk, hM, hY⟩, hRel⟩ := reached_rel hC h0 h
  refine ⟨SmallVector.mrep_clean hM, fun hy k => ?_⟩
  cases hk : m.mem.heap k with
  | none => rfl
  | some b =>
    obtain ⟨i, v, c, h2, _⟩ := hM.owner hk
    have : Y i = none := by
      refine SmV.of_none hY ?_
      simp only [conts]
      split
      · rw [hRel.none (hy (i / 2))]; rfl
      · rfl
    rw [this] at h2; simp at h2

/-- C66, defect. After any program: copy assignment whose container fails to copy leaves the entries of before with the order of the source. If
that order has two of the entries the other way, the map is not sorted by its own comparison. -/
theorem C66_failed_assign_defect (hC : Refines C cap sw rep) {s : σ} (hs : rep (fun _ => none) s) {m : Mem σ κ} {y : Spec.Sys κ ε}
    (h : Reached key C cap sw s m y) {i src : Nat} {a b : Spec.AMap κ ε} (hi : y i = some a) (hsrc : y src = some b) {e f : ε}
    (he : e ∈ a.entries) (hf : f ∈ a.entries) (hef : a.lt (key e) (key f) = true) (hfe : b.lt (key f) (key e) = true) :
    ∃ m' : Mem σ κ, ∃ xs : List ε, tcall key C (.assignFails i src) m = some (.exc .badAlloc, m') ∧ m'.lt i = some b.lt ∧
      C.size (2 * i) m'.mem = .ok xs.length m'.mem ∧ (∀ p (h : p < xs.length), C.get (2 * i) p m'.mem = .ok xs[p] m'.mem) ∧
      xs.Perm a.entries ∧ ¬ xs.Pairwise fun x y => b.lt (key x) (key y) = true := by
  obtain ⟨hcont, _⟩ := C66_user_exceptions_partial hC hs h
  obtain ⟨_, xs, h1, h2, h3, h4⟩ := hcont i a hi
  obtain ⟨hlt, _⟩ := hcont src b hsrc
  obtain ⟨st, _, hR⟩ := reached_rel hC hs h
  obtain ⟨_, _, hw, _⟩ := hR.some hsrc
  obtain ⟨_, _, hwa, _⟩ := hR.some hi
  refine ⟨_, xs, rfl, by simp [hlt], h1, h4, h2, fun hn => ?_⟩
  obtain ⟨p, hp, rfl⟩ := List.mem_iff_getElem.mp (h2.mem_iff.mpr he)
  obtain ⟨q, hq, rfl⟩ := List.mem_iff_getElem.mp (h2.mem_iff.mpr hf)
  rcases Nat.lt_trichotomy p q with hpq | hpq | hpq
  · have h5 := List.pairwise_iff_getElem.mp hn p q hp hq hpq
    have h6 := hw.trans _ _ _ h5 hfe
    rw [hw.irrefl] at h6; simp at h6
  · subst hpq
    rw [hwa.irrefl] at hef; simp at hef
  · have h5 := List.pairwise_iff_getElem.mp h3 q p hq hp hpq
    have h6 := hwa.trans _ _ _ h5 hef
    rw [hwa.irrefl] at h6; simp at h6

/-! ### Concrete cases -/

def up (a b : Nat) : Bool := decide (a < b)
def down (a b : Nat) : Bool := decide (b < a)
theorem up_sw : StrictWeak up := by
  refine ⟨?_, ?_, ?_⟩ <;> simp only [up, decide_eq_true_eq, decide_eq_false_iff_not] <;> intros <;> omega
theorem down_sw : StrictWeak down := by
  refine ⟨?_, ?_, ?_⟩ <;> simp only [down, decide_eq_true_eq, decide_eq_false_iff_not] <;> intros <;> omega

/-- run some calls -/
def trun (C : Cont σ (Nat × Nat)) : List (TOp Nat (Nat × Nat)) → Mem σ Nat → Option (List (Reply (Nat × Nat)) × Mem σ Nat)
  | [], m => some ([], m)
  | op :: ops, m => do
    let (r, m) ← tcall Prod.fst C op m
    let (rs, m) ← trun C ops m
    some (r :: rs, m)

/-- a reply in numbers -/
def code : Reply (Nat × Nat) → Nat × Nat × Nat
  | .pos i => (0, i, 0)
  | .posFlag i b => (1, i, b.toNat)
  | .num n => (2, n, 0)
  | .ref i e => (3, i, e.2)
  | .bool b => (5, b.toNat, 0)
  | .exc .user => (6, 0, 0)
  | .exc _ => (7, 0, 0)
  | _ => (4, 0, 0)

def k (n : Nat) : Probe Nat := Probe.ofKey up n

/-- comparisons that throw at different moments -/
def demo : List (TOp Nat (Nat × Nat)) :=
  [.call (.build 0 up [(4, 0), (2, 1), (2, 2)] [(2, 1), (2, 2), (4, 0)]) (some 2), .buildSort 0 up [(4, 0), (2, 1), (2, 2)] [(9, 9), (2, 1), (2, 2)],
   .call (.build 0 up [(4, 0), (2, 1), (2, 2)] [(2, 1), (2, 2), (4, 0)]) (some 3), .call (.on 0 (.insert (k 3) (3, 5))) (some 1),
   .call (.on 0 .size) none, .call (.on 0 (.insert (k 3) (3, 5))) (some 9), .emplace 0 (k 5) (5, 5) (some 0), .call (.on 0 (.index (k 1) (1, 0))) (some 2),
   .call (.on 0 (.index (k 1) (1, 0))) (some 4), .call (.on 0 (.eraseKey (k 4))) (some 1), .call (.on 0 .size) none]

example : ((trun (stdVector ⟨fun _ => (99, 99), (0, 0)⟩) demo ⟨fun _ => none, fun _ => none⟩).map fun r => r.1.map code) =
    some [(6, 0, 0), (6, 0, 0), (4, 0, 0), (6, 0, 0), (2, 2, 0), (1, 1, 1), (6, 0, 0), (6, 0, 0), (3, 0, 0), (6, 0, 0), (2, 4, 0)] := by decide +kernel

/-- a program with an exception, that ends in a state of the defect -/
example : ∃ m, ∃ y : Spec.Sys Nat (Nat × Nat), Reached Prod.fst (stdVector ⟨id, (0, 0)⟩) none true (fun _ => none) m y ∧
    y 0 = some ⟨up, [(3, 5), (2, 0)]⟩ ∧ y 1 = some ⟨down, []⟩ := by
  have h0 : Reached (Prod.fst : Nat × Nat → Nat) (stdVector ⟨id, (0, 0)⟩) none true (fun _ => none) ⟨fun _ => none, fun _ => none⟩ fun _ => none := .start
  have h1 := Reached.step (op := .call (.build 0 up [(3, 5), (2, 0)] [(2, 0), (3, 5)]) (some 0)) (r := .exc .user) h0
    ⟨rfl, up_sw, by decide, by simp [Spec.Ordered, up]⟩ trivial (.inl rfl) rfl
  have h2 := Reached.step (op := .call (.build 0 up [(3, 5), (2, 0)] [(2, 0), (3, 5)]) (some 1)) (r := .unit) h1
    ⟨rfl, up_sw, by decide, by simp [Spec.Ordered, up]⟩ trivial (.inl rfl) rfl
  have h3 := Reached.step (op := .emplace 0 (k 9) (9, 0) (some 0)) (r := .exc .user) h2 ⟨_, rfl, fun _ => ⟨rfl, rfl⟩⟩ trivial (.inl rfl) rfl
  have h4 := Reached.step (op := .call (.new 1 down) none) (r := .unit) h3 ⟨rfl, down_sw⟩ trivial (.inl rfl) rfl
  exact ⟨_, _, h4, rfl, rfl⟩

/-- the state of the defect can be reached, and then a key that is there is not found -/
example : ((trun (stdVector ⟨fun _ => (99, 99), (0, 0)⟩) [.call (.build 0 up [(1, 0), (2, 0), (3, 0)] [(1, 0), (2, 0), (3, 0)]) none,
      .call (.new 1 down) none, .assignFails 0 1, .call (.on 0 (.count ⟨fun a => down a 3, fun a => down 3 a⟩)) none]
      ⟨fun _ => none, fun _ => none⟩).map fun r => r.1.map code) =
    some [(4, 0, 0), (4, 0, 0), (7, 0, 0), (2, 0, 0)] := by decide +kernel

end Itlib.FlatOver.T
