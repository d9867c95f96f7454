import Verif.UMap.Props
import Verif.UMap.ThrowSpec
import Verif.UMap.ThrowLemmas

/-! # C81: `transparent_umap` when hash functions, comparisons and conversions throw -/
namespace Itlib.UMap.T
open Itlib.UMap.Spec (Ending Step Run allowed asks wasted)
variable {K V Q A : Type}
variable {L : Lang K V Q A} {lib : Lib K Q} {fails : Nat → Bool} {y : Spec.Sys K V} {s : St K V}

theorem sim_exec (hlib : lib.Lawful L) (h : Rel L lib y s) (op : Op K V Q A) (ha : asks op) :
    Sim (wasted L y op) (UMap.exec L lib fails op) (exec L lib fails op) s := by
  cases op with
  | tryEmplace q a => exact sim_bind_last (sim_tryEmplace q (L.make a) s _ (findQ_ok hlib h q)) _
  | index q => exact sim_bind_last (sim_bind_last (sim_tryEmplace q L.dflt s _ (findQ_ok hlib h q)) _) _
  | «at» q => exact sim_bind_last (sim_at q s) _
  | find q => exact sim_bind_last (sim_findQ q s) _
  | erase k => exact sim_bind_last (sim_erase k s) _
  | read r => exact absurd ha id
  | write r v => exact absurd ha id
  | size => exact absurd ha id

/-- calls without user code -/
theorem quiet_exec (op : Op K V Q A) (ha : ¬asks op) (l : Option Nat) :
    exec L lib fails op ⟨s, l⟩ = lift l (UMap.exec L lib fails op s) := by
  cases op with
  | read r =>
    refine quiet l ?_ _
    simp only [act]
    cases UMap.read r s <;> rfl
  | write r v =>
    refine quiet l ?_ (fun _ => Reply.unit)
    simp only [act]
    cases UMap.write r v s <;> rfl
  | size => rfl
  | _ => exact absurd trivial ha

theorem call_of_lift {op : Op K V Q A} {l l' : Option Nat} (e : exec L lib fails op ⟨s, l⟩ = lift l' (UMap.exec L lib fails op s)) :
    call L lib fails op l s = UMap.call L lib fails op s := by
  simp only [call, UMap.call, e]
  cases UMap.exec L lib fails op s <;> rfl

theorem rel_near {s' : St K V} (h : Rel L lib y s) (hn : Near s s') (n : Nat) (hb : s'.built = s.built + n) :
    Rel L lib { y with built := y.built + n } s' := by
  unfold Near at hn
  rw [hn]
  exact ⟨⟨h.tab.pos, h.tab.mem, h.tab.nodup, h.tab.lt⟩, h.key, h.val, h.ref, h.size, h.next, by simp [h.built, hb]⟩

theorem step_some (op : Op K V Q A) (ha : allowed y op) : Spec.step L false y op ≠ none := by
  cases op with
  | tryEmplace q a =>
    simp only [Spec.step]
    split <;> simp
  | index q =>
    simp only [Spec.step]
    split <;> simp
  | «at» q =>
    simp only [Spec.step]
    split <;> simp
  | find q => simp [Spec.step]
  | erase k =>
    simp only [Spec.step]
    split <;> simp
  | size => simp [Spec.step]
  | read r =>
    obtain ⟨h1, h2⟩ := ha
    obtain ⟨k, hk⟩ := Option.ne_none_iff_exists'.mp h1
    obtain ⟨v, hv⟩ := Option.ne_none_iff_exists'.mp h2
    simp [Spec.step, hk, hv]
  | write r w =>
    obtain ⟨h1, h2⟩ := ha
    obtain ⟨k, hk⟩ := Option.ne_none_iff_exists'.mp h1
    simp [Spec.step, hk]

/-- one call -/
theorem call_step (hlib : lib.Lawful L) (h : Rel L lib y s) (op : Op K V Q A) (ha : allowed y op) (l : Option Nat) :
    ∃ e r y' s', Step L y op r y' e ∧ call L lib fails op l s = .ok r s' ∧ Rel L lib y' s' ∧
      (e = .oom → ∃ n, fails n = true) ∧ (e = .thrown → l ≠ none) := by
  have plain : ∀ l', exec L lib fails op ⟨s, l⟩ = lift l' (UMap.exec L lib fails op s) →
      ∃ e r y' s', Step L y op r y' e ∧ call L lib fails op l s = .ok r s' ∧ Rel L lib y' s' ∧
        (e = .oom → ∃ n, fails n = true) ∧ (e = .thrown → l ≠ none) := by
    intro l' e
    obtain ⟨oom, r, y', s', h1, h2, h3, h4⟩ := step_refines (fails := fails) hlib h op (step_some op ha)
    rw [← call_of_lift e] at h2
    cases oom with
    | false => exact ⟨.fine, r, y', s', h1, h2, h3, by simp, by simp⟩
    | true => exact ⟨.oom, r, y', s', h1, h2, h3, fun _ => h4 rfl, by simp⟩
  by_cases hask : asks op
  · rcases sim_exec (fails := fails) hlib h op hask l with ⟨l', _, e⟩ | ⟨hl, s', l', e, hn, h1, h2⟩
    · exact plain l' e
    · refine ⟨.thrown, .exc .user, { y with built := y.built + (s'.built - s.built) }, s', ⟨hask, rfl, s'.built - s.built, by omega, rfl⟩,
        by simp [call, e], rel_near h hn _ (by omega), by simp, fun _ => hl⟩
  · exact plain l (quiet_exec op hask l)

/-- **C81.** Histories in which user code (hash functions, comparisons, the conversion of the key, the move of the value) throws wherever it
likes: a call that it leaves by an exception leaves the map, all its entries and all references as they were; at most one value was made in
vain, and none if there is an entry for the key. All other calls give what a map on equivalence classes of keys gives. Or the program makes a
call that is not allowed after what it was told so far: it uses a reference to an entry that does not exist. -/
theorem C81_history (hlib : lib.Lawful L) {n : Nat} (hn : 0 < n) (ops : List (Op K V Q A × Option Nat)) :
    (∃ es rs y s, Run L (ops.map (·.1)) es Spec.start rs y ∧ run L lib fails ops (start n) = .ok rs s ∧ y.built = s.built ∧
      (.oom ∈ es → ∃ n, fails n = true) ∧ (.thrown ∈ es → ∃ o ∈ ops, o.2 ≠ none)) ∨
    (∃ pre o post es rs y s, ops = pre ++ o :: post ∧ Run L (pre.map (·.1)) es Spec.start rs y ∧
      run L lib fails pre (start n) = .ok rs s ∧ ¬allowed y o.1) := by
  have key : ∀ (ops : List (Op K V Q A × Option Nat)) (y : Spec.Sys K V) (s : St K V), Rel L lib y s →
      (∃ es rs y' s', Run L (ops.map (·.1)) es y rs y' ∧ run L lib fails ops s = .ok rs s' ∧ y'.built = s'.built ∧
        (.oom ∈ es → ∃ n, fails n = true) ∧ (.thrown ∈ es → ∃ o ∈ ops, o.2 ≠ none)) ∨
      (∃ pre o post es rs y' s', ops = pre ++ o :: post ∧ Run L (pre.map (·.1)) es y rs y' ∧
        run L lib fails pre s = .ok rs s' ∧ ¬allowed y' o.1) := by
    intro ops
    induction ops with
    | nil => intro y s h; exact .inl ⟨[], [], y, s, .nil y, rfl, h.built, by simp, by simp⟩
    | cons o ops ih =>
      obtain ⟨op, l⟩ := o
      intro y s h
      by_cases ha : allowed y op
      · obtain ⟨e, r, y1, s1, h1, h2, h3, h4, h5⟩ := call_step (fails := fails) hlib h op ha l
        rcases ih y1 s1 h3 with ⟨es, rs, y2, s2, g1, g2, g3, g4, g5⟩ | ⟨pre, o, post, es, rs, y2, s2, g1, g2, g3, g4⟩
        · refine .inl ⟨e :: es, r :: rs, y2, s2, .cons h1 g1, by simp [run, h2, g2], g3, ?_, ?_⟩
          · intro hm
            rcases List.mem_cons.mp hm with hm | hm
            · exact h4 hm.symm
            · exact g4 hm
          · intro hm
            rcases List.mem_cons.mp hm with hm | hm
            · exact ⟨(op, l), by simp, h5 hm.symm⟩
            · obtain ⟨o, ho, ho'⟩ := g5 hm
              exact ⟨o, List.mem_cons_of_mem _ ho, ho'⟩
        · exact .inr ⟨(op, l) :: pre, o, post, e :: es, r :: rs, y2, s2, by simp [g1], .cons h1 g2, by simp [run, h2, g3], g4⟩
      · exact .inr ⟨[], (op, l), ops, [], [], y, s, rfl, .nil y, rfl, ha⟩
  exact key ops _ _ (rel_start hn)

/-- the number of values made does not matter to replies -/
theorem reply_built {op : Op K V Q A} {r r' : Reply K V} {y1 y2 : Spec.Sys K V} (n : Nat) (h : Spec.step L false y op = some (r, y1))
    (k : Spec.step L false { y with built := y.built + n } op = some (r', y2)) : r' = r := by
  have done : ∀ {x x' : Reply K V} {z z' : Spec.Sys K V}, x' = x → some (x, z) = some (r, y1) → some (x', z') = some (r', y2) → r' = r := by
    intro x x' z z' e h k
    simp only [Option.some.injEq, Prod.mk.injEq] at h k
    rw [← h.1, ← k.1, e]
  cases op with
  | tryEmplace q a =>
    cases hr : y.ref (L.key q) <;> cases hm : L.make a <;>
      simp only [Spec.step, Spec.emplace, hr, hm, Bool.false_eq_true, if_false] at h k <;> exact done rfl h k
  | index q =>
    cases hr : y.ref (L.key q) <;> cases hm : L.dflt <;>
      simp only [Spec.step, Spec.emplace, hr, hm, Bool.false_eq_true, if_false] at h k <;> exact done rfl h k
  | «at» q => cases hr : y.ref (L.key q) <;> simp only [Spec.step, hr] at h k <;> exact done rfl h k
  | find q => simp only [Spec.step] at h k; exact done rfl h k
  | erase k' => cases hr : y.ref k' <;> simp only [Spec.step, hr] at h k <;> exact done rfl h k
  | size => simp only [Spec.step] at h k; exact done rfl h k
  | read x =>
    cases hr : y.key x <;> cases hv : y.val x <;> simp only [Spec.step, hr, hv] at h k <;> first | exact done rfl h k | cases h
  | write x v => cases hr : y.key x <;> simp only [Spec.step, hr] at h k <;> first | exact done rfl h k | cases h

/-- **C81.** If user code throws in one call on a table, the same call, repeated without exceptions, gives what it would have given at once. -/
theorem C81_retry (hlib : lib.Lawful L) (hok : ∀ n, fails n = false) (h : Rel L lib y s) (op : Op K V Q A) (ha : allowed y op) (l : Option Nat) :
    ∃ r s1 s2 s3, call L lib fails op none s = .ok r s1 ∧
      (call L lib fails op l s = .ok r s2 ∨
        call L lib fails op l s = .ok (.exc .user) s2 ∧ call L lib fails op none s2 = .ok r s3) := by
  have fine : ∀ (y : Spec.Sys K V) (s : St K V), Rel L lib y s → allowed y op →
      ∃ r y' s', Spec.step L false y op = some (r, y') ∧ call L lib fails op none s = .ok r s' := by
    intro y s h ha
    obtain ⟨e, r, y', s', h1, h2, _, h4, h5⟩ := call_step (fails := fails) hlib h op ha none
    cases e with
    | fine => exact ⟨r, y', s', h1, h2⟩
    | oom => obtain ⟨m, hm⟩ := h4 rfl; rw [hok] at hm; simp at hm
    | thrown => exact absurd rfl (h5 rfl)
  obtain ⟨r, y1, s1, h1, h2⟩ := fine y s h ha
  obtain ⟨e, r', y2, s2, g1, g2, g3, g4, _⟩ := call_step (fails := fails) hlib h op ha l
  cases e with
  | fine =>
    have g1' : Spec.step L false y op = some (r', y2) := g1
    rw [h1] at g1'
    simp only [Option.some.injEq, Prod.mk.injEq] at g1'
    rw [← g1'.1] at g2
    exact ⟨r, s1, s2, s2, h2, .inl g2⟩
  | oom => obtain ⟨m, hm⟩ := g4 rfl; rw [hok] at hm; simp at hm
  | thrown =>
    obtain ⟨_, rfl, n, _, rfl⟩ := g1
    have ha' : allowed { y with built := y.built + n } op := by cases op <;> exact ha
    obtain ⟨r3, y3, s3, k1, k2⟩ := fine _ s2 g3 ha'
    have : r3 = r := reply_built n h1 k1
    subst this
    exact ⟨r3, s1, s2, s3, h2, .inr ⟨g2, k2⟩⟩

/-- **C81.** A limit: the value is made before the key is converted, so an exception of the conversion loses it (and with it the arguments
that were moved to it), although nothing was inserted. -/
theorem C81_value_lost_limit (q : Q) (a : A) (v : V) (hv : L.make a = some v) (h0 : fails 0 = false) (n : Nat) :
    ∃ s, call L lib fails (.tryEmplace q a) (some 1) (start n) = .ok (.exc .user) s ∧ s.built = 1 ∧ s.size = 0 := by
  refine ⟨{ start n with built := 1, allocs := 1 }, ?_, rfl, rfl⟩
  simp [call, exec, tryEmplace, findQ, user, start, scan, act, build, hv, emplace, alloc, h0]

/-! ### A concrete case: keys modulo 10 with collisions; the hash, a comparison, the conversion throw -/
section Cases

example : (match run mod10 doubling (fun _ => false)
      [(.tryEmplace 13 5, none), (.tryEmplace 5 6, some 1), (.tryEmplace 5 6, some 2), (.tryEmplace 5 6, some 4), (.tryEmplace 5 6, none),
        (.find 3, some 0), (.erase 33, some 2), (.erase 33, some 9), (.size, some 0), (.read 1, some 0)] (start 1) with
    | .ok rs s => some (rs, s.built)
    | _ => none) =
    some ([.emplaced 0 true, .exc .user, .exc .user, .exc .user, .emplaced 1 true, .exc .user, .exc .user, .count 1, .count 1,
      .entry 5 6], 4) := by
  decide +kernel

end Cases
end Itlib.UMap.T
