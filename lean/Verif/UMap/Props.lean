import Verif.UMap.Lemmas

/-! # C51: `transparent_umap` is a map -/
namespace Itlib.UMap
variable {K V Q A : Type}
variable {L : Lang K V Q A} {lib : Lib K Q} {fails : Nat → Bool} {y : Spec.Sys K V} {s : St K V}

theorem rel_rehash (h : Rel L lib y s) {c : Nat} (hc : 0 < c) :
    ∃ s', rehash lib c s = .ok () s' ∧ Rel L lib y s' ∧ s'.next = s.next ∧ s'.built = s.built := by
  obtain ⟨bk', e, g⟩ := rehash_ok h.tab hc
  exact ⟨_, e, ⟨g, h.key, h.val, h.ref, h.size, h.next, h.built⟩, rfl, rfl⟩

/-- `emplace` of a key that is not there: the new entry, or no memory -/
theorem emplace_ok (hlib : lib.Lawful L) (h : Rel L lib y s) {k : K} (hk : y.ref k = none) (v : V) :
    (∃ s', emplace lib fails k v s = .ok (y.next, true) s' ∧ Rel L lib { Spec.insert L y k v with built := y.built } s') ∨
    ((∃ n, fails n = true) ∧ ∃ s', emplace lib fails k v s = .throw .badAlloc s' ∧ Rel L lib y s') := by
  by_cases hf : fails s.allocs = true
  · exact .inr ⟨⟨_, hf⟩, { s with allocs := s.allocs + 1 }, by simp [emplace, alloc, hf],
      ⟨⟨h.tab.pos, h.tab.mem, h.tab.nodup, h.tab.lt⟩, h.key, h.val, h.ref, h.size, h.next, h.built⟩⟩
  have h1 : Rel L lib y { s with allocs := s.allocs + 1 } :=
    ⟨⟨h.tab.pos, h.tab.mem, h.tab.nodup, h.tab.lt⟩, h.key, h.val, h.ref, h.size, h.next, h.built⟩
  have e1 := findK_ok hlib h1 k
  rw [hk] at e1
  have last : ∀ s2 : St K V, Rel L lib y s2 →
      ∃ s', (do
          let s ← M.get
          let r := s.next
          M.modify fun s => { s with nd := Function.update s.nd r (some (k, v)), next := s.next + 1, size := s.size + 1 }
          link lib r
          pure (r, true) : M (St K V) (Nat × Bool)) s2 = .ok (y.next, true) s' ∧
        Rel L lib { Spec.insert L y k v with built := y.built } s' := by
    intro s2 h2
    refine ⟨_, ?_, rel_insert hlib h2 hk v⟩
    simp [link, h2.next]
  cases hg : lib.grow s.n (s.size + 1) with
  | none =>
    obtain ⟨s', e2, g2⟩ := last _ h1
    refine .inl ⟨s', ?_, g2⟩
    simpa [emplace, alloc, hf, e1, hg] using e2
  | some c =>
    by_cases hf2 : fails (s.allocs + 1) = true
    · exact .inr ⟨⟨_, hf2⟩, { s with allocs := s.allocs + 2 }, by simp [emplace, alloc, hf, e1, hg, hf2],
        ⟨⟨h.tab.pos, h.tab.mem, h.tab.nodup, h.tab.lt⟩, h.key, h.val, h.ref, h.size, h.next, h.built⟩⟩
    have h2 : Rel L lib y { s with allocs := s.allocs + 1 + 1 } :=
      ⟨⟨h.tab.pos, h.tab.mem, h.tab.nodup, h.tab.lt⟩, h.key, h.val, h.ref, h.size, h.next, h.built⟩
    obtain ⟨s3, e3, g3, _, _⟩ := rel_rehash h2 (hlib.grow _ _ _ hg)
    obtain ⟨s', e4, g4⟩ := last _ g3
    refine .inl ⟨s', ?_, g4⟩
    simpa [emplace, alloc, hf, e1, hg, hf2, e3] using e4

/-- `try_emplace` -/
theorem tryEmplace_ok (hlib : lib.Lawful L) (h : Rel L lib y s) (q : Q) (v : Option V) :
    ∃ oom s', (oom = true → ∃ n, fails n = true) ∧ Rel L lib (Spec.emplace L oom y (L.key q) v).2 s' ∧
      tryEmplace L lib fails q v s = match (Spec.emplace L oom y (L.key q) v).1 with
        | .ok p => .ok p s'
        | .error e => .throw e s' := by
  have e0 := findQ_ok hlib h q
  cases hr : y.ref (L.key q) with
  | some r =>
    rw [hr] at e0
    exact ⟨false, s, by simp, by simpa [Spec.emplace, hr] using h, by simp [Spec.emplace, hr, tryEmplace, e0]⟩
  | none =>
    rw [hr] at e0
    cases v with
    | none => exact ⟨false, s, by simp, by simpa [Spec.emplace, hr] using h, by simp [Spec.emplace, hr, tryEmplace, e0, build]⟩
    | some v =>
      have h1 : Rel L lib { y with built := y.built + 1 } { s with built := s.built + 1 } :=
        ⟨⟨h.tab.pos, h.tab.mem, h.tab.nodup, h.tab.lt⟩, h.key, h.val, h.ref, h.size, h.next, by simp [h.built]⟩
      rcases emplace_ok (fails := fails) hlib h1 (k := L.key q) hr v with ⟨s', e, g⟩ | ⟨hn, s', e, g⟩
      · exact ⟨false, s', by simp, by simp only [Spec.emplace, hr, Bool.false_eq_true, if_false]; exact g, by simp [Spec.emplace, hr, tryEmplace, e0, build, e]⟩
      · exact ⟨true, s', fun _ => hn, by simpa [Spec.emplace, hr] using g, by simp [Spec.emplace, hr, tryEmplace, e0, build, e]⟩

/-- one call -/
theorem step_refines (hlib : lib.Lawful L) (h : Rel L lib y s) (op : Op K V Q A) (hs : Spec.step L false y op ≠ none) :
    ∃ oom r y' s', Spec.step L oom y op = some (r, y') ∧ call L lib fails op s = .ok r s' ∧ Rel L lib y' s' ∧
      (oom = true → ∃ n, fails n = true) := by
  cases op with
  | tryEmplace q a =>
    obtain ⟨oom, s', h1, h2, h3⟩ := tryEmplace_ok (fails := fails) hlib h q (L.make a)
    rcases hp : Spec.emplace L oom y (L.key q) (L.make a) with ⟨e | p, y'⟩
    · rw [hp] at h2 h3
      dsimp only at h2 h3
      exact ⟨oom, .exc e, y', s', by simp only [Spec.step, hp], by simp [call, exec, h3], h2, h1⟩
    · rw [hp] at h2 h3
      dsimp only at h2 h3
      exact ⟨oom, .emplaced p.1 p.2, y', s', by simp only [Spec.step, hp], by simp [call, exec, h3], h2, h1⟩
  | index q =>
    obtain ⟨oom, s', h1, h2, h3⟩ := tryEmplace_ok (fails := fails) hlib h q L.dflt
    rcases hp : Spec.emplace L oom y (L.key q) L.dflt with ⟨e | p, y'⟩
    · rw [hp] at h2 h3
      dsimp only at h2 h3
      exact ⟨oom, .exc e, y', s', by simp only [Spec.step, hp], by simp [call, exec, index, h3], h2, h1⟩
    · rw [hp] at h2 h3
      dsimp only at h2 h3
      exact ⟨oom, .ref p.1, y', s', by simp only [Spec.step, hp], by simp [call, exec, index, h3], h2, h1⟩
  | «at» q =>
    have e0 := findQ_ok hlib h q
    cases hr : y.ref (L.key q) with
    | some r =>
      rw [hr] at e0
      exact ⟨false, (.ref r), y, s, by simp only [Spec.step, hr], by simp [call, exec, at_, e0], h, by simp⟩
    | none =>
      rw [hr] at e0
      exact ⟨false, (.exc .outOfRange), y, s, by simp only [Spec.step, hr], by simp [call, exec, at_, e0], h, by simp⟩
  | find q =>
    have e0 := findQ_ok hlib h q
    exact ⟨false, _, _, s, rfl, by simp [call, exec, e0], h, by simp⟩
  | read r =>
    rcases hr : s.nd r with _ | ⟨k, v⟩
    · exfalso
      apply hs
      simp [Spec.step, h.key, hr]
    · exact ⟨false, .entry k v, y, s, by simp [Spec.step, h.key, h.val, hr], by simp [call, exec, read, hr], h, by simp⟩
  | write r w =>
    rcases hr : s.nd r with _ | ⟨k, v⟩
    · exfalso
      apply hs
      simp [Spec.step, h.key, hr]
    · exact ⟨false, .unit, _, _, by simp [Spec.step, h.key, hr], by simp [call, exec, write, hr], rel_write h hr w, by simp⟩
  | erase k =>
    have e0 := findK_ok hlib h k
    cases hr : y.ref k with
    | none =>
      rw [hr] at e0
      exact ⟨false, (.count 0), y, s, by simp only [Spec.step, hr], by simp [call, exec, erase, e0], h, by simp⟩
    | some r =>
      rw [hr] at e0
      exact ⟨false, .count 1, _, _, by simp only [Spec.step, hr], by simp [call, exec, erase, e0], rel_erase hlib h hr, by simp⟩
  | size =>
    exact ⟨false, _, _, s, rfl, by simp [call, exec, h.size], h, by simp⟩

theorem rel_start {n : Nat} (hn : 0 < n) : Rel L lib (Spec.start (K := K) (V := V)) (start n) := by
  refine ⟨⟨hn, ?_, ?_, ?_⟩, ?_, ?_, ?_, rfl, rfl, rfl⟩ <;> simp [start, Spec.start]

/-- **C51.** Every history that is allowed, whichever allocations fail, gives the results of a map on equivalence classes of
keys: entries that exist are not touched by `try_emplace` and `[]`, which then do not make values; `at` throws exactly if
there is no entry; an exception while a value is made, or for lack of memory, leaves the map as it was; references stay
valid when the table grows. -/
theorem C51_history (hlib : lib.Lawful L) {n : Nat} (hn : 0 < n) (ops : List (Op K V Q A))
    (hall : ∀ fs : List Bool, fs.length = ops.length → Spec.run L ops fs Spec.start ≠ none) :
    ∃ fs rs y s, Spec.run L ops fs Spec.start = some (rs, y) ∧ run L lib fails ops (start n) = .ok rs s ∧
      y.built = s.built ∧ (true ∈ fs → ∃ n, fails n = true) := by
  have key : ∀ (ops : List (Op K V Q A)) (y : Spec.Sys K V) (s : St K V), Rel L lib y s →
      (∀ fs : List Bool, fs.length = ops.length → Spec.run L ops fs y ≠ none) →
      ∃ fs rs y' s', Spec.run L ops fs y = some (rs, y') ∧ run L lib fails ops s = .ok rs s' ∧ Rel L lib y' s' ∧
        (true ∈ fs → ∃ n, fails n = true) := by
    intro ops
    induction ops with
    | nil => intro y s h _; exact ⟨[], [], y, s, rfl, rfl, h, by simp⟩
    | cons op ops ih =>
      intro y s h hall
      obtain ⟨oom, r, y1, s1, h1, h2, h3, h4⟩ := step_refines (fails := fails) hlib h op (by
        intro hno
        apply hall (List.replicate (op :: ops).length false) (by simp)
        simp [Spec.run, List.replicate, hno])
      obtain ⟨fs, rs, y2, s2, g1, g2, g3, g4⟩ := ih y1 s1 h3 (by
        intro fs hfs hno
        apply hall (oom :: fs) (by simp [hfs])
        simp [Spec.run, h1, hno])
      refine ⟨oom :: fs, r :: rs, y2, s2, by simp [Spec.run, h1, g1], by simp [run, h2, g2], g3, ?_⟩
      intro hm
      rcases List.mem_cons.mp hm with hm | hm
      · exact h4 hm.symm
      · exact g4 hm
  obtain ⟨fs, rs, y, s, h1, h2, h3, h4⟩ := key ops _ _ (rel_start hn) hall
  exact ⟨fs, rs, y, s, h1, h2, h3.built, h4⟩

/-- **C51.** If there is always memory, the results are those of the specification, exactly. -/
theorem C51_history_memory (hlib : lib.Lawful L) (hok : ∀ n, fails n = false) {n : Nat} (hn : 0 < n)
    (ops : List (Op K V Q A)) {rs : List (Reply K V)} {y : Spec.Sys K V}
    (hs : Spec.run L ops (ops.map fun _ => false) Spec.start = some (rs, y)) :
    ∃ s, run L lib fails ops (start n) = .ok rs s ∧ y.built = s.built := by
  have key : ∀ (ops : List (Op K V Q A)) (y y' : Spec.Sys K V) (rs : List (Reply K V)) (s : St K V), Rel L lib y s →
      Spec.run L ops (ops.map fun _ => false) y = some (rs, y') → ∃ s', run L lib fails ops s = .ok rs s' ∧ Rel L lib y' s' := by
    intro ops
    induction ops with
    | nil =>
      intro y y' rs s h hs
      simp only [List.map_nil, Spec.run, Option.some.injEq, Prod.mk.injEq] at hs
      obtain ⟨rfl, rfl⟩ := hs
      exact ⟨s, rfl, h⟩
    | cons op ops ih =>
      intro y y' rs s h hs
      simp only [List.map_cons, Spec.run, Option.bind_eq_bind, Option.bind_eq_some_iff] at hs
      obtain ⟨⟨r, y1⟩, h1, ⟨rs1, y2⟩, h2, h3⟩ := hs
      simp only [Option.some.injEq, Prod.mk.injEq] at h3
      obtain ⟨rfl, rfl⟩ := h3
      obtain ⟨oom, r', y1', s1, g1, g2, g3, g4⟩ := step_refines (fails := fails) hlib h op (by rw [h1]; simp)
      have : oom = false := by
        cases oom with
        | false => rfl
        | true => obtain ⟨m, hm⟩ := g4 rfl; rw [hok m] at hm; simp at hm
      subst this
      rw [h1] at g1
      simp only [Option.some.injEq, Prod.mk.injEq] at g1
      obtain ⟨rfl, rfl⟩ := g1
      obtain ⟨s2, e2, g5⟩ := ih _ _ _ _ g3 h2
      exact ⟨s2, by simp [run, g2, e2], g5⟩
  obtain ⟨s, h1, h2⟩ := key ops _ _ _ _ (rel_start hn) hs
  exact ⟨s, h1, h2.built⟩

/-! ### A concrete case: keys are numbers modulo 10, probes are numbers, everything collides, the table doubles -/
section Cases


def mod10 : Lang Nat Nat Nat Nat := ⟨fun a b => a % 10 = b % 10, id, fun a => if a = 0 then none else some a, some 7⟩
def doubling : Lib Nat Nat := ⟨fun k => k % 10 % 2, fun q => q % 10 % 2, fun a b => a % 10 == b % 10, fun a b => a % 10 == b % 10,
  fun b n => if b < n then some (2 * b + 1) else none⟩

example : doubling.Lawful mod10 where
  equiv := ⟨fun _ => rfl, fun h => Eq.symm h, fun h g => Eq.trans h g⟩
  eq a b := by simp [doubling, mod10]
  eqQ a b := by simp [doubling, mod10]
  hash a b h := by simp only [mod10] at h; simp only [doubling, h]
  hashQ q := rfl
  grow b n c h := by
    simp only [doubling] at h
    split_ifs at h with h1
    simp only [Option.some.injEq] at h
    omega

example : (Spec.run mod10 [.tryEmplace 13 5, .tryEmplace 3 9, .index 23, .index 4, .at 14, .at 5, .tryEmplace 5 0, .erase 33,
      .size, .find 3, .read 1] (List.replicate 11 false) Spec.start).map (·.1) =
    some [.emplaced 0 true, .emplaced 0 false, .ref 0, .ref 1, .ref 1, .exc .outOfRange, .exc .element, .count 1, .count 1,
      .found none, .entry 4 7] := by
  simp [Spec.run, Spec.step, Spec.emplace, Spec.insert, Spec.start, mod10, List.replicate]

end Cases
end Itlib.UMap
