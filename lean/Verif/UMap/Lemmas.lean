import Verif.Core.Tac
import Verif.UMap.Model

/-! # The table represents the map -/
namespace Itlib.UMap
variable {K V Q A : Type}

/-- the table alone: every node is in its bucket, once -/
structure Table (lib : Lib K Q) (s : St K V) : Prop where
  pos : 0 < s.n
  mem : ∀ b r, r ∈ s.bk b ↔ ∃ k v, s.nd r = some (k, v) ∧ b = lib.hash k % s.n
  nodup : ∀ b, (s.bk b).Nodup
  lt : ∀ r, s.nd r ≠ none → r < s.next

/-- and its contents -/
structure Rel (L : Lang K V Q A) (lib : Lib K Q) (y : Spec.Sys K V) (s : St K V) : Prop where
  tab : Table lib s
  key : ∀ r, y.key r = (s.nd r).map Prod.fst
  val : ∀ r, y.val r = (s.nd r).map Prod.snd
  ref : ∀ k r, y.ref k = some r ↔ ∃ k' v, s.nd r = some (k', v) ∧ L.eqv k k'
  size : y.size = s.size
  next : y.next = s.next
  built : y.built = s.built

variable {L : Lang K V Q A} {lib : Lib K Q} {fails : Nat → Bool} {y : Spec.Sys K V} {s : St K V}

theorem scan_ok (p : K → Bool) (l : List Nat) (s : St K V) (hl : ∀ r ∈ l, s.nd r ≠ none) :
    ∃ f, scan p l s = .ok f s ∧ (∀ r, f = some r → r ∈ l ∧ ∃ k v, s.nd r = some (k, v) ∧ p k = true) ∧
      (f = none → ∀ r ∈ l, ∀ k v, s.nd r = some (k, v) → p k = false) := by
  induction l with
  | nil => exact ⟨none, rfl, by simp, by simp⟩
  | cons r rs ih =>
    obtain ⟨f, h1, h2, h3⟩ := ih (fun r hr => hl r (List.mem_cons_of_mem _ hr))
    obtain ⟨⟨k, v⟩, hk⟩ := Option.ne_none_iff_exists'.mp (hl r (by simp))
    cases hp : p k with
    | true =>
      refine ⟨some r, by simp [scan, hk, hp], ?_, by simp⟩
      intro r' hr'
      cases hr'
      exact ⟨by simp, k, v, hk, hp⟩
    | false =>
      refine ⟨f, by simp [scan, hk, hp, h1], ?_, ?_⟩
      · intro r' hr'
        obtain ⟨h4, h5⟩ := h2 r' hr'
        exact ⟨List.mem_cons_of_mem _ h4, h5⟩
      · intro hf r' hr' k' v' hk'
        rcases List.mem_cons.mp hr' with rfl | hr'
        · rw [hk] at hk'
          cases hk'
          exact hp
        · exact h3 hf r' hr' k' v' hk'

/-- looking in the right bucket for the right keys finds the entry -/
theorem scan_ref (hlib : lib.Lawful L) (h : Rel L lib y s) (k : K) (p : K → Bool) (hp : ∀ k', p k' = true ↔ L.eqv k k')
    {b : Nat} (hb : b = lib.hash k % s.n) : scan p (s.bk b) s = .ok (y.ref k) s := by
  obtain ⟨f, h1, h2, h3⟩ := scan_ok p (s.bk b) s (by
    intro r hr
    obtain ⟨k', v, hk, _⟩ := (h.tab.mem b r).mp hr
    rw [hk]; simp)
  rw [h1]
  congr 1
  cases f with
  | some r =>
    obtain ⟨_, k', v, hk, hpk⟩ := h2 r rfl
    exact ((h.ref k r).mpr ⟨k', v, hk, (hp k').mp hpk⟩).symm
  | none =>
    cases hr : y.ref k with
    | none => rfl
    | some r =>
      obtain ⟨k', v, hk, he⟩ := (h.ref k r).mp hr
      have hm : r ∈ s.bk b := (h.tab.mem b r).mpr ⟨k', v, hk, by rw [hb, hlib.hash _ _ he]⟩
      have := h3 rfl r hm k' v hk
      rw [(hp k').mpr he] at this
      simp at this

theorem findQ_ok (hlib : lib.Lawful L) (h : Rel L lib y s) (q : Q) : findQ lib q s = .ok (y.ref (L.key q)) s := by
  have := scan_ref hlib h (L.key q) (lib.eqQ q) (hlib.eqQ q) (b := lib.hashQ q % s.n) (by rw [hlib.hashQ])
  simp [findQ, this]

theorem findK_ok (hlib : lib.Lawful L) (h : Rel L lib y s) (k : K) : findK lib k s = .ok (y.ref k) s := by
  have := scan_ref hlib h k (fun k' => lib.eq k k') (hlib.eq k) (b := lib.hash k % s.n) rfl
  simp [findK, this]

/-- only the number of allocations, or of values made, changes -/
theorem Rel.counts (h : Rel L lib y s) (a b : Nat) :
    Rel L lib { y with built := b } { s with allocs := a, built := b } :=
  ⟨⟨h.tab.pos, h.tab.mem, h.tab.nodup, h.tab.lt⟩, h.key, h.val, h.ref, h.size, h.next, rfl⟩

/-- Linking nodes one after the other. -/
theorem linkAll_ok (l : List Nat) : ∀ (s : St K V), (∀ r ∈ l, s.nd r ≠ none) → l.Nodup → (∀ b, (s.bk b).Nodup) →
    (∀ b r, r ∈ s.bk b → r ∉ l) →
    ∃ bk', linkAll lib l s = .ok () { s with bk := bk' } ∧ (∀ b, (bk' b).Nodup) ∧
      (∀ b r, r ∈ bk' b ↔ r ∈ s.bk b ∨ r ∈ l ∧ ∃ k v, s.nd r = some (k, v) ∧ b = lib.hash k % s.n) := by
  induction l with
  | nil => intro s _ _ h3 _; exact ⟨s.bk, rfl, h3, by simp⟩
  | cons r rs ih =>
    intro s h1 h2 h3 h4
    obtain ⟨⟨k, v⟩, hk⟩ := Option.ne_none_iff_exists'.mp (h1 r (by simp))
    rw [List.nodup_cons] at h2
    have hfresh : ∀ b, r ∉ s.bk b := fun b hr => h4 b r hr (by simp)
    obtain ⟨bk', e, g1, g2⟩ := ih { s with bk := Function.update s.bk (lib.hash k % s.n) (r :: s.bk (lib.hash k % s.n)) }
      (fun r' hr' => h1 r' (List.mem_cons_of_mem _ hr')) h2.2 (by
        intro b
        by_cases hb : b = lib.hash k % s.n
        · subst hb; simp only [Function.update_self]; exact List.nodup_cons.mpr ⟨hfresh _, h3 _⟩
        · simp only [Function.update_of_ne hb]; exact h3 b) (by
        intro b r' hr'
        by_cases hb : b = lib.hash k % s.n
        · subst hb
          simp only [Function.update_self, List.mem_cons] at hr'
          rcases hr' with rfl | hr'
          · exact h2.1
          · exact fun hm => h4 _ _ hr' (List.mem_cons_of_mem _ hm)
        · simp only [Function.update_of_ne hb] at hr'
          exact fun hm => h4 _ _ hr' (List.mem_cons_of_mem _ hm))
    refine ⟨bk', ?_, g1, ?_⟩
    · simp [linkAll, link, hk, e]
    · intro b r'
      rw [g2 b r']
      by_cases hb : b = lib.hash k % s.n
      · subst hb
        simp only [Function.update_self, List.mem_cons]
        constructor
        · rintro ((rfl | hm) | hm)
          · exact .inr ⟨.inl rfl, k, v, hk, rfl⟩
          · exact .inl hm
          · exact .inr ⟨.inr hm.1, hm.2⟩
        · rintro (hm | ⟨rfl | hm, h5⟩)
          · exact .inl (.inr hm)
          · exact .inl (.inl rfl)
          · exact .inr ⟨hm, h5⟩
      · simp only [Function.update_of_ne hb, List.mem_cons]
        constructor
        · rintro (hm | hm)
          · exact .inl hm
          · exact .inr ⟨.inr hm.1, hm.2⟩
        · rintro (hm | ⟨rfl | hm, h5⟩)
          · exact .inl hm
          · obtain ⟨k', v', hk', hb'⟩ := h5
            rw [hk] at hk'
            cases hk'
            exact absurd hb' hb
          · exact .inr ⟨hm, h5⟩

/-- Rehashing puts every node in its new bucket. -/
theorem rehash_ok (h : Table lib s) {c : Nat} (hc : 0 < c) :
    ∃ bk', rehash lib c s = .ok () { s with n := c, bk := bk' } ∧ Table lib { s with n := c, bk := bk' } := by
  have hmem : ∀ r, r ∈ (List.range s.n).flatMap s.bk ↔ s.nd r ≠ none := by
    intro r
    simp only [List.mem_flatMap, List.mem_range]
    constructor
    · rintro ⟨b, _, hb⟩
      obtain ⟨k, v, hk, _⟩ := (h.mem b r).mp hb
      rw [hk]; simp
    · intro hr
      obtain ⟨⟨k, v⟩, hk⟩ := Option.ne_none_iff_exists'.mp hr
      exact ⟨_, Nat.mod_lt _ h.pos, (h.mem _ r).mpr ⟨k, v, hk, rfl⟩⟩
  obtain ⟨bk', e, g1, g2⟩ := linkAll_ok (lib := lib) ((List.range s.n).flatMap s.bk)
    { s with n := c, bk := fun _ => [] } (fun r hr => (hmem r).mp hr) (by
      rw [List.nodup_iff_pairwise_ne, List.pairwise_flatMap]
      refine ⟨fun b _ => List.nodup_iff_pairwise_ne.mp (h.nodup b), ?_⟩
      refine List.Pairwise.imp ?_ (List.nodup_iff_pairwise_ne.mp List.nodup_range)
      rintro a b hab r hra _ hrb rfl
      obtain ⟨k, v, hk, ha⟩ := (h.mem _ _).mp hra
      obtain ⟨k', v', hk', hb⟩ := (h.mem _ _).mp hrb
      rw [hk] at hk'
      cases hk'
      exact hab (ha.trans hb.symm)) (by simp) (by simp)
  refine ⟨bk', by simp [rehash, e], hc, ?_, g1, h.lt⟩
  intro b r
  rw [g2 b r]
  simp only [List.not_mem_nil, false_or]
  constructor
  · exact fun hm => hm.2
  · rintro ⟨k, v, hk, hb⟩
    exact ⟨(hmem r).mpr (by have hk : s.nd r = _ := hk; rw [hk]; simp), k, v, hk, hb⟩

/-- A new node. -/
theorem rel_insert (hlib : lib.Lawful L) (h : Rel L lib y s) {k : K} (hk : y.ref k = none) (v : V) :
    Rel L lib { Spec.insert L y k v with built := y.built } { s with
      nd := Function.update s.nd s.next (some (k, v))
      next := s.next + 1
      size := s.size + 1
      bk := Function.update s.bk (lib.hash k % s.n) (s.next :: s.bk (lib.hash k % s.n)) } := by
  have hfresh : s.nd s.next = none := by
    by_contra hn
    exact absurd (h.tab.lt _ hn) (Nat.lt_irrefl _)
  have hnm : ∀ b, s.next ∉ s.bk b := by
    intro b hb
    obtain ⟨k', v', hk', _⟩ := (h.tab.mem _ _).mp hb
    rw [hfresh] at hk'; simp at hk'
  refine ⟨⟨h.tab.pos, ?_, ?_, ?_⟩, ?_, ?_, ?_, ?_, ?_, h.built⟩
  · intro b r
    by_cases hr : r = s.next
    · subst hr
      by_cases hb : b = lib.hash k % s.n
      · subst hb; simp
      · simp only [Function.update_of_ne hb, Function.update_self]
        constructor
        · exact fun hm => absurd hm (hnm b)
        · rintro ⟨k', v', hk', hb'⟩
          cases hk'
          exact absurd hb' hb
    · simp only [Function.update_of_ne hr]
      rw [← h.tab.mem b r]
      by_cases hb : b = lib.hash k % s.n
      · subst hb; simp [hr]
      · simp only [Function.update_of_ne hb]
  · intro b
    by_cases hb : b = lib.hash k % s.n
    · subst hb
      simp only [Function.update_self]
      exact List.nodup_cons.mpr ⟨hnm _, h.tab.nodup _⟩
    · simp only [Function.update_of_ne hb]; exact h.tab.nodup b
  · intro r hr
    show r < s.next + 1
    by_cases e : r = s.next
    · omega
    · simp only [Function.update_of_ne e] at hr
      have := h.tab.lt r hr
      omega
  · intro r
    by_cases e : r = s.next
    · subst e; simp [Spec.insert, h.next]
    · simp only [Spec.insert, h.next, Function.update_of_ne e]; exact h.key r
  · intro r
    by_cases e : r = s.next
    · subst e; simp [Spec.insert, h.next]
    · simp only [Spec.insert, h.next, Function.update_of_ne e]; exact h.val r
  · intro k1 r
    simp only [Spec.insert]
    by_cases he : L.eqv k k1
    · rw [if_pos he]
      simp only [Option.some.injEq]
      constructor
      · rintro rfl
        exact ⟨k, v, by rw [h.next]; simp, hlib.equiv.symm he⟩
      · rintro ⟨k', v', hk', he'⟩
        by_contra hne
        have hne' : r ≠ s.next := fun e => hne (by rw [h.next, e])
        simp only [Function.update_of_ne hne'] at hk'
        have := (h.ref k r).mpr ⟨k', v', hk', hlib.equiv.trans he he'⟩
        rw [hk] at this
        simp at this
    · rw [if_neg he, h.ref k1 r]
      by_cases hr : r = s.next
      · subst hr
        simp only [hfresh, Function.update_self]
        constructor
        · rintro ⟨k', v', hk', _⟩; simp at hk'
        · rintro ⟨k', v', hk', he'⟩
          cases hk'
          exact absurd (hlib.equiv.symm he') he
      · simp only [Function.update_of_ne hr]
  · simp [Spec.insert, h.size]
  · simp [Spec.insert, h.next]

theorem rel_write (h : Rel L lib y s) {r : Nat} {k : K} {v : V} (hr : s.nd r = some (k, v)) (w : V) :
    Rel L lib { y with val := Function.update y.val r (some w) } { s with nd := Function.update s.nd r (some (k, w)) } := by
  have hnd : ∀ r' k', (∃ v', Function.update s.nd r (some (k, w)) r' = some (k', v')) ↔ ∃ v', s.nd r' = some (k', v') := by
    intro r' k'
    by_cases e : r' = r
    · subst e
      simp [hr]
    · simp [e]
  refine ⟨⟨h.tab.pos, ?_, h.tab.nodup, ?_⟩, ?_, ?_, ?_, h.size, h.next, h.built⟩
  · intro b r'
    rw [h.tab.mem b r']
    constructor
    · rintro ⟨k', v', hk', hb⟩
      obtain ⟨v'', h1⟩ := (hnd r' k').mpr ⟨v', hk'⟩
      exact ⟨k', v'', h1, hb⟩
    · rintro ⟨k', v', hk', hb⟩
      obtain ⟨v'', h1⟩ := (hnd r' k').mp ⟨v', hk'⟩
      exact ⟨k', v'', h1, hb⟩
  · intro r' hr'
    apply h.tab.lt r'
    by_cases e : r' = r
    · subst e; rw [hr]; simp
    · simpa only [Function.update_of_ne e] using hr'
  · intro r'
    by_cases e : r' = r
    · subst e; simp [h.key, hr]
    · simp only [Function.update_of_ne e]; exact h.key r'
  · intro r'
    by_cases e : r' = r
    · subst e; simp
    · simp only [Function.update_of_ne e]; exact h.val r'
  · intro k1 r'
    show y.ref k1 = _ ↔ _
    rw [h.ref k1 r']
    constructor
    · rintro ⟨k', v', hk', hb⟩
      obtain ⟨v'', h1⟩ := (hnd r' k').mpr ⟨v', hk'⟩
      exact ⟨k', v'', h1, hb⟩
    · rintro ⟨k', v', hk', hb⟩
      obtain ⟨v'', h1⟩ := (hnd r' k').mp ⟨v', hk'⟩
      exact ⟨k', v'', h1, hb⟩

open Classical in
theorem rel_erase (hlib : lib.Lawful L) (h : Rel L lib y s) {k : K} {r : Nat} (hk : y.ref k = some r) :
    Rel L lib { y with
        ref := fun k' => if L.eqv k k' then none else y.ref k'
        key := Function.update y.key r none
        val := Function.update y.val r none
        size := y.size - 1 }
      { s with
        bk := Function.update s.bk (lib.hash k % s.n) ((s.bk (lib.hash k % s.n)).erase r)
        nd := Function.update s.nd r none
        size := s.size - 1 } := by
  obtain ⟨k0, v0, hr, he⟩ := (h.ref k r).mp hk
  have hh := hlib.hash _ _ he
  refine ⟨⟨h.tab.pos, ?_, ?_, ?_⟩, ?_, ?_, ?_, ?_, h.next, h.built⟩
  · intro b r'
    by_cases e : r' = r
    · subst e
      simp only [Function.update_self]
      constructor
      · intro hm
        exfalso
        by_cases hb : b = lib.hash k % s.n
        · subst hb
          simp only [Function.update_self] at hm
          exact ((h.tab.nodup _).not_mem_erase) hm
        · simp only [Function.update_of_ne hb] at hm
          obtain ⟨k', v', hk', hb'⟩ := (h.tab.mem b r').mp hm
          rw [hr] at hk'
          cases hk'
          exact hb (by rw [hb', hh])
      · rintro ⟨k', v', hk', _⟩; simp at hk'
    · simp only [Function.update_of_ne e]
      rw [← h.tab.mem b r']
      by_cases hb : b = lib.hash k % s.n
      · subst hb
        simp only [Function.update_self]
        exact List.mem_erase_of_ne e
      · simp only [Function.update_of_ne hb]
  · intro b
    by_cases hb : b = lib.hash k % s.n
    · subst hb
      simp only [Function.update_self]
      exact (h.tab.nodup _).erase _
    · simp only [Function.update_of_ne hb]; exact h.tab.nodup b
  · intro r' hr'
    apply h.tab.lt r'
    by_cases e : r' = r
    · subst e; simp at hr'
    · simpa only [Function.update_of_ne e] using hr'
  · intro r'
    by_cases e : r' = r
    · subst e; simp
    · simp only [Function.update_of_ne e]; exact h.key r'
  · intro r'
    by_cases e : r' = r
    · subst e; simp
    · simp only [Function.update_of_ne e]; exact h.val r'
  · intro k1 r'
    dsimp only
    by_cases he1 : L.eqv k k1
    · rw [if_pos he1]
      constructor
      · intro hx; simp at hx
      · rintro ⟨k', v', hk', he'⟩
        exfalso
        by_cases e : r' = r
        · subst e; simp at hk'
        · simp only [Function.update_of_ne e] at hk'
          have := (h.ref k r').mpr ⟨k', v', hk', hlib.equiv.trans he1 he'⟩
          rw [hk] at this
          exact e (Option.some.inj this).symm
    · rw [if_neg he1, h.ref k1 r']
      by_cases e : r' = r
      · subst e
        simp only [hr, Function.update_self]
        constructor
        · rintro ⟨k', v', hk', he'⟩
          cases hk'
          exact absurd (hlib.equiv.trans he (hlib.equiv.symm he')) he1
        · rintro ⟨k', v', hk', _⟩; simp at hk'
      · simp only [Function.update_of_ne e]
  · simp [h.size]

end Itlib.UMap
