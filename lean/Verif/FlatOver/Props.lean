import Verif.FlatOver.Instances

/-!
# Properties of `flat_map` and `flat_set` on top of `static_vector` and `small_vector` (C57)

`key` is the projection of elements to keys: `Prod.fst` for `flat_map`, `id` for `flat_set`.

Partial: arguments are not parts of the map itself (see the defect below), elements and comparisons do not throw.
-/
namespace Itlib.FlatOver
open Itlib Itlib.Flat
variable {κ ε : Type}

/-- no maps at the start of a program -/
def start {σ : Type} (s : σ) : Mem σ κ := ⟨s, fun _ => none⟩

theorem run_start {σ : Type} [DecidableEq ε] {key : ε → κ} {C : Cont σ ε} {cap : Option Nat} {sw : Bool}
    {rep : Conts ε → σ → Prop} (hC : Refines C cap sw rep) {s : σ} (hs : rep (fun _ => none) s) (ops : List (MOp κ ε))
    (hp : Spec.MPreRun key cap ops fun _ => none) (hsw : sw = true ∨ ∀ i j, .swap i j ∉ ops) :
    ∃ st m, mrun key C ops (start s) = some ((Spec.mrun key cap ops fun _ => none).1, m) ∧ MRel rep st m ∧
      Rel key st (Spec.mrun key cap ops fun _ => none).2 := by
  refine mrun_sim hC ops (st := fun _ => none) ⟨fun _ => rfl, ?_⟩ (by intro i; trivial) hp hsw
  have : conts (fun _ => none : Flat.Store κ ε) = fun _ => none := by funext n; simp [conts]
  rw [this]; exact hs

/-- **C57, `static_vector`.** For any history of calls on any number of `flat_map`s/`flat_set`s whose containers are
`static_vector`s of capacity `cap`: no undefined behaviour, and every answer, including the `out_of_range` of insertions
into a full map and of constructions from too long sequences, is the one of the abstract maps. Afterwards the buffer of
every existing map consists of exactly its entries, alive, in strictly increasing order of keys, followed by raw storage;
no other container object exists, in particular no temporary of a constructor, and no storage of a destroyed one holds a
live object. Whatever values moving leaves behind in elements (`E.mv`). -/
theorem C57_flat_over_static_vector_partial [DecidableEq ε] (key : ε → κ) (E : Elem ε) (cap : Nat) (hcap : cap < 2 ^ 63)
    (ops : List (MOp κ ε)) (hp : Spec.MPreRun key (some cap) ops fun _ => none) :
    ∃ m, mrun key (staticVector E cap) ops (start StaticVector.Store.init) =
        some ((Spec.mrun key (some cap) ops fun _ => none).1, m) ∧
      (∀ i a, (Spec.mrun key (some cap) ops fun _ => none).2 i = some a → m.lt i = some a.lt ∧
        ∃ (v : StaticVector.SV ε) (xs : List ε), m.mem.vec (2 * i) = some v ∧ xs.Perm a.entries ∧
          (xs.Pairwise fun x y => a.lt (key x) (key y) = true) ∧ v.size = xs.length ∧ v.buf.cap = cap ∧
          (∀ p (h : p < xs.length), v.buf.cells p = .live xs[p]) ∧ ∀ p, xs.length ≤ p → v.buf.cells p = .raw) ∧
      (∀ n, (∀ i a, (Spec.mrun key (some cap) ops fun _ => none).2 i = some a → n ≠ 2 * i) → m.mem.vec n = none) ∧
      ∀ b ∈ m.mem.graves, ∀ p, b.cells p = .raw := by
  have h0 : SV.Holds cap (fun _ => none) (StaticVector.Store.init : StaticVector.Store ε) :=
    ⟨[], by intro b hb; simp at hb, by intro i c xs h; simp [SV.lift] at h, rfl⟩
  obtain ⟨st, m, h1, ⟨hlt, g, hg, hG, hm⟩, hR⟩ := run_start (SV.refines E hcap) h0 ops hp (.inl rfl)
  refine ⟨m, h1, ?_, ?_, ?_⟩
  · intro i a ha
    obtain ⟨xs, hx, hw, hs, hperm⟩ := hR.some ha
    have hc : conts st (2 * i) = some xs := by rw [conts_even, hx]; rfl
    refine ⟨by rw [hlt, hx]; rfl, StaticVector.rep cap xs, xs, ?_, hperm, hs, rfl, rfl, ?_, ?_⟩
    · rw [hm]; exact StaticVector.mrep_vec (SV.lift_some hc)
    · intro p hp'; exact Buf.ofList_live hp'
    · intro p hp'; exact Buf.ofList_raw hp'
  · intro n hn
    rw [hm]
    refine StaticVector.mrep_vec_none (SV.lift_none ?_)
    simp only [conts]
    split
    · rename_i h2
      cases hi : (Spec.mrun key (some cap) ops fun _ => none).2 (n / 2) with
      | none => rw [hR.none hi]; rfl
      | some a => exact absurd (show n = 2 * (n / 2) by omega) (hn _ a hi)
    · rfl
  · rw [hm]; exact hg

/-- **C57, `small_vector`.** The same for `small_vector`s with any static capacity, any revert threshold and any allocator,
for histories without `swap`, which the container does not have. Afterwards memory is `Clean` (every block belongs to one
vector, only live objects where there are elements), the contents of every existing map can be read from its container, no
other container object exists, and if no map exists nothing is allocated. -/
theorem C57_flat_over_small_vector_partial [DecidableEq ε] (key : ε → κ) (P : SmallVector.Params) (hN : 0 < P.N)
    (hR : P.R ≤ P.N + 1) (E : Elem ε) (al : Nat) (ops : List (MOp κ ε)) (hp : Spec.MPreRun key none ops fun _ => none)
    (hsw : ∀ i j, .swap i j ∉ ops) :
    ∃ m, mrun key (smallVector P E al) ops (start SmallVector.Mem.init) =
        some ((Spec.mrun key none ops fun _ => none).1, m) ∧
      (∀ i a, (Spec.mrun key none ops fun _ => none).2 i = some a → m.lt i = some a.lt ∧
        ∃ xs : List ε, SmallVector.at' (2 * i) SmallVector.size m.mem = .ok xs.length m.mem ∧ xs.Perm a.entries ∧
          (xs.Pairwise fun x y => a.lt (key x) (key y) = true) ∧
          ∀ p (h : p < xs.length), SmallVector.at' (2 * i) (SmallVector.at_ p) m.mem = .ok xs[p] m.mem) ∧
      (∀ n, (∀ i a, (Spec.mrun key none ops fun _ => none).2 i = some a → n ≠ 2 * i) → m.mem.vec n = none) ∧
      SmallVector.Clean m.mem ∧
      ((∀ i, (Spec.mrun key none ops fun _ => none).2 i = none) → ∀ k, m.mem.heap k = none) := by
  have h0 : SmV.Holds P (fun _ => none) (SmallVector.Mem.init : SmallVector.Mem ε) :=
    ⟨fun _ => none, fun _ => 0, SmallVector.init_mrep P, fun _ => rfl⟩
  have hC := SmV.refines hN hR E al
  obtain ⟨st, m, h1, ⟨hlt, hH⟩, hRel⟩ := run_start hC h0 ops hp (.inr hsw)
  have hgone : ∀ n, (∀ i a, (Spec.mrun key none ops fun _ => none).2 i = some a → n ≠ 2 * i) → conts st n = none := by
    intro n hn
    simp only [conts]
    split
    · cases hi : (Spec.mrun key none ops fun _ => none).2 (n / 2) with
      | none => rw [hRel.none hi]; rfl
      | some a => exact absurd (show n = 2 * (n / 2) by omega) (hn _ a hi)
    · rfl
  refine ⟨m, h1, ?_, ?_, ?_, ?_⟩
  · intro i a ha
    obtain ⟨xs, hx, hw, hs, hperm⟩ := hRel.some ha
    have hc : conts st (2 * i) = some xs := by rw [conts_even, hx]; rfl
    exact ⟨by rw [hlt, hx]; rfl, xs, hC.size hH hc, hperm, hs, fun p hp' => hC.get hH hc hp'⟩
  · intro n hn
    obtain ⟨Y, blk, hM, hY⟩ := hH
    rw [hM.vec n, SmV.of_none hY (hgone n hn)]
    rfl
  · obtain ⟨Y, blk, hM, hY⟩ := hH
    exact SmallVector.mrep_clean hM
  · intro hy k
    obtain ⟨Y, blk, hM, hY⟩ := hH
    cases hk : m.mem.heap k with
    | none => rfl
    | some b =>
      obtain ⟨i, v, c, h2, _⟩ := hM.owner hk
      have : Y i = none := SmV.of_none hY (hgone i (by intro j a ha; rw [hy j] at ha; simp at ha))
      rw [this] at h2; simp at h2

/-! A concrete program, over `static_vector<pair, 3>`: duplicates in the source, an insertion that is rejected, a
construction that is rejected. -/

def demoOps : List (MOp Nat (Nat × Nat)) :=
  [.build 0 demoLt [(4, 0), (12, 1), (2, 2)] [(12, 1), (2, 2), (4, 0)], .on 0 (.insert (demoK 7) (7, 70)),
   .on 0 (.insert (demoK 9) (9, 1)), .on 0 (.index (demoK 12) (12, 0)), .copy 1 0, .on 1 (.eraseKey (demoK 4)), .eq 0 1,
   .build 2 demoLt [(4, 0), (12, 1), (2, 2), (2, 3)] [(12, 1), (2, 2), (2, 3), (4, 0)], .moveAssign 0 1, .on 0 .size, .on 1 .size,
   .destroy 1]

example : Spec.MPreRun Prod.fst (some 3) demoOps fun _ => none := by
  have hk : ∀ n, Consistent demoLt (demoK n) := fun n => probeOf_consistent demoLt_sw (demoK_of n)
  simp only [demoOps, Spec.MPreRun, and_true]
  refine ⟨⟨rfl, demoLt_sw, by decide, by simp [Spec.Ordered, demoLt]⟩, ⟨_, rfl, demoK_of _⟩, ⟨_, rfl, demoK_of _⟩,
    ⟨_, rfl, demoK_of _⟩, ⟨rfl, rfl⟩, ⟨_, rfl, hk _⟩, ⟨_, _, rfl, rfl, rfl⟩,
    ⟨rfl, demoLt_sw, by decide, by simp [Spec.Ordered, demoLt]⟩, ⟨rfl, rfl, by decide⟩, ⟨_, rfl, trivial⟩, ⟨_, rfl, trivial⟩, rfl⟩

/-- a reply in numbers -/
def code : Reply (Nat × Nat) → Nat × Nat × Nat
  | .pos i => (0, i, 0)
  | .posFlag i b => (1, i, b.toNat)
  | .num n => (2, n, 0)
  | .ref i e => (3, i, e.2)
  | .bool b => (5, b.toNat, 0)
  | .exc _ => (6, 0, 0)
  | _ => (4, 0, 0)

-- what the models answer on it; moved-from elements become (99, 99)
example : ((mrun Prod.fst (staticVector ⟨fun _ => (99, 99), (0, 0)⟩ 3) demoOps (start .init)).map fun r => r.1.map code) =
    some [(4, 0, 0), (1, 2, 1), (6, 0, 0), (3, 0, 1), (4, 0, 0), (2, 1, 0), (5, 0, 0), (6, 0, 0), (4, 0, 0), (2, 2, 0), (2, 0, 0),
      (4, 0, 0)] := by decide +kernel

example : ((mrun Prod.fst (smallVector ⟨2, 1⟩ ⟨fun _ => (99, 99), (0, 0)⟩ 7) demoOps (start .init)).map fun r => r.1.map code) =
    some [(4, 0, 0), (1, 2, 1), (1, 3, 1), (3, 0, 1), (4, 0, 0), (2, 1, 0), (5, 0, 0), (4, 0, 0), (4, 0, 0), (2, 3, 0), (2, 0, 0),
      (4, 0, 0)] := by decide +kernel

/-! ### A key that is a mapped value of the map itself -/

/-- Defect: `m[(m.begin() + q)->second]`, for a map over a `static_vector` that is not full and does not have that key, the
place of the new key being `j`. `std::vector` would insert the key in any case. Here it is inserted only if `q < j`. If
`q = j` the behaviour is undefined, if `q > j` the inserted key is the mapped value of the entry before `q`. -/
theorem C57_defect_index_own_value [DecidableEq κ] (E : Elem (κ × κ)) (cap : Nat) (hcap : cap < 2 ^ 63) (lt : κ → κ → Bool)
    (hw : StrictWeak lt) (dflt : κ) (y : Conts (κ × κ)) (s : StaticVector.Store (κ × κ)) (hs : SV.Holds cap y s) (i : Nat)
    (xs : List (κ × κ)) (hy : y i = some xs) (hx : xs.Pairwise fun a b => lt a.1 b.1 = true) (hl : xs.length < cap) (q : Nat)
    (hq : q < xs.length) (hk : ∀ e ∈ xs, lt e.1 xs[q].2 = true ∨ lt xs[q].2 e.1 = true) (j : Nat)
    (hj : j = xs.countP fun e => lt e.1 xs[q].2) :
    (q < j → ∃ s', indexOwn E cap lt dflt i q s = .ok j s' ∧ (staticVector E cap).get i j s' = .ok (xs[q].2, dflt) s') ∧
    (q = j → indexOwn E cap lt dflt i q s = .ub) ∧
    (j < q → ∃ s', indexOwn E cap lt dflt i q s = .ok j s' ∧
      (staticVector E cap).get i j s' = .ok (xs[q - 1].2, dflt) s') := by
  have hC := SV.refines E hcap
  have hS : Sorted Prod.fst lt xs := hx
  have hkc := probeOf_consistent hw (k := Probe.ofKey lt xs[q].2) (x := xs[q].2) fun _ => ⟨rfl, rfl⟩
  obtain ⟨c, hlb, _⟩ := lowerBoundC_eq (key := Prod.fst) hS hkc
  obtain ⟨hr1, hr2, hr3⟩ := rank_spec (key := Prod.fst) hS hkc
  have hjr : Spec.rank Prod.fst (Probe.ofKey lt xs[q].2) xs = j := hj.symm
  rw [hjr] at hlb hr1 hr2 hr3
  have hlb' := lowerBound_run hC hs hy hlb
  have hgo : indexOwn E cap lt dflt i q s = StaticVector.at' i (emplaceOwn E j q fun e => (e.2, dflt)) s := by
    simp only [indexOwn, M.bind_apply, hC.get hs hy hq, hlb', hC.size hs hy]
    by_cases hn : j = xs.length
    · simp [hn]
    · have hjl : j < xs.length := by omega
      have h1 : lt xs[q].2 xs[j].1 = true := by
        rcases hk xs[j] (List.getElem_mem hjl) with h | h
        · have := hr3 j hjl (Nat.le_refl _)
          simp only [Probe.ofKey] at this
          rw [h] at this; simp at this
        · exact h
      simp [hn, hC.get hs hy hjl, h1]
  have hcap' : cap < StaticVector.sizeMod := by simp only [StaticVector.sizeMod]; omega
  have hgrow := StaticVector.growAt_rep E (n := 1) hr1 hl hcap'
  obtain ⟨g, hg, hG, rfl⟩ := hs
  have hvec := StaticVector.mrep_vec (g := g) (SV.lift_some (cap := cap) hy)
  have hput : ∀ a, (StaticVector.emplaceAt j a ⟨StaticVector.gap cap xs j 1, xs.length + 1, none⟩ :
      Res (StaticVector.SV (κ × κ)) Unit) = .ok () (StaticVector.rep cap (xs.take j ++ [a] ++ xs.drop j)) := by
    intro a
    have h1 := StaticVector.emplaceAt_gap (m := xs.length + 1) (a := a) (ys := []) (n := 1) (by simp) hl hr1
    simp only [List.length_nil, Nat.add_zero] at h1
    rw [StaticVector.gap_eq, h1]
    have h2 := StaticVector.gapFill_full (cap := cap) (ys := [a]) hr1
    simp only [List.length_singleton] at h2
    simp only [List.nil_append, h2, StaticVector.rep]
    congr 2
    simp; omega
  have hmain : ∀ e, (StaticVector.gap cap xs j 1).read q = some e →
      ∃ s', indexOwn E cap lt dflt i q (StaticVector.mrep (SV.lift cap y) g) = .ok j s' ∧
        (staticVector E cap).get i j s' = .ok (e.2, dflt) s' := by
    intro e he
    refine ⟨(StaticVector.mrep (SV.lift cap y) g).put i (some (StaticVector.rep cap (xs.take j ++ [(e.2, dflt)] ++ xs.drop j))),
      ?_, ?_⟩
    · rw [hgo]
      refine StaticVector.at'_ok hvec ?_
      simp only [emplaceOwn, M.bind_apply, hgrow, StaticVector.readArg, M.load, he, hput, M.pure_apply]
    · refine StaticVector.at'_read (v := StaticVector.rep cap (xs.take j ++ [(e.2, dflt)] ++ xs.drop j))
        (by simp [StaticVector.Store.put]) ?_
      have := StaticVector.at_rep (cap := cap) (xs := xs.take j ++ [(e.2, dflt)] ++ xs.drop j) (i := j)
        (by simp; omega) (by simp; omega)
      rw [this]
      congr 1
      simp [List.getElem_append, Nat.min_eq_left hr1]
  refine ⟨?_, ?_, ?_⟩
  · intro hqj
    refine hmain _ (Buf.read_live (by simp only [StaticVector.gap]; omega) ?_)
    simp only [StaticVector.gap]
    rw [if_pos hqj, Buf.ofList_live]
  · intro hqj
    subst hqj
    have hraw : (StaticVector.gap cap xs q 1).read q = none := by simp [Buf.read, StaticVector.gap]
    rw [hgo]
    simp only [StaticVector.at', hvec, emplaceOwn, M.bind_apply, hgrow, StaticVector.readArg, M.load, hraw]
  · intro hqj
    refine hmain _ (Buf.read_live (by simp only [StaticVector.gap]; omega) ?_)
    simp only [StaticVector.gap]
    rw [if_neg (by omega), if_neg (by omega), Buf.ofList_live]

-- `{1: 5, 3: 2, 7: 9}`, `m[2]` for the 2 of the second entry, which is the place of the new key: undefined
example : (∀ e ∈ [(1, 5), (3, 2), (7, 9)], decide (e.1 < 2) = true ∨ decide (2 < e.1) = true) ∧
    1 = [(1, 5), (3, 2), (7, 9)].countP fun e => decide (e.1 < 2) := by decide
-- `{1: 5, 3: 7, 8: 2}`, `m[2]` for the 2 of the last entry: inserts 7 before 3
example : (∀ e ∈ [(1, 5), (3, 7), (8, 2)], decide (e.1 < 2) = true ∨ decide (2 < e.1) = true) ∧
    1 = [(1, 5), (3, 7), (8, 2)].countP fun e => decide (e.1 < 2) := by decide

end Itlib.FlatOver
