import Verif.MemOut.CopyLemmas

/-! # The refinement for several `mem_ostreambuf`s -/
namespace Itlib.MemOut
open Itlib M
variable {C : Type} {K : Container C} {T : Transfer C}

/-- The container holds the data of the file. -/
structure Cont (K : Container C) (y : Spec.File C) (b : Buf C) : Prop where
  pos : y.pos ≤ y.data.length
  len : y.data.length ≤ b.elems.length
  elems : b.elems.take y.data.length = y.data
  taken : y.taken = true → y.data = [] ∧ y.pos = 0 ∧ K.nullEmpty = false

/-- An object and what the specification knows of it. -/
structure SlotRel (K : Container C) (s : Spec.Slot C) (b : Buf C) : Prop where
  size : b.elems.length ≤ b.cap
  fits : K.Fits b.cap
  cont : ∀ y, s.file = some y → Cont K y b
  rel : ∀ y, s.file = some y → s.borrowed = false → Rel K y b

theorem Rel.cont {y : Spec.File C} {b : Buf C} (h : Rel K y b) : Cont K y b :=
  ⟨h.pos, h.len, h.elems, fun ht => ⟨(h.taken ht).1, (h.taken ht).2.1, (h.taken ht).2.2.1⟩⟩

theorem Rel.slot {y : Spec.File C} {b : Buf C} (h : Rel K y b) (f : Bool) : SlotRel K ⟨some y, f⟩ b :=
  ⟨h.size, h.fits, fun _ hy => by cases hy; exact h.cont, fun _ hy _ => by cases hy; exact h⟩

theorem Rel.fresh {y : Spec.File C} {b : Buf C} (h : Rel K y b) (f : Nat) : Rel K y { b with fresh := f } :=
  ⟨h.pptr, h.epptr, h.taken, h.size, h.fits, h.pos, h.len, h.elems⟩

theorem SlotRel.fresh {s : Spec.Slot C} {b : Buf C} (h : SlotRel K s b) (f : Nat) : SlotRel K s { b with fresh := f } :=
  ⟨h.size, h.fits, fun y hy => ⟨(h.cont y hy).pos, (h.cont y hy).len, (h.cont y hy).elems, (h.cont y hy).taken⟩,
    fun y hy hb => (h.rel y hy hb).fresh f⟩

/-- the program and the files -/
structure WRel (K : Container C) (s : Spec.Files C) (w : World C) : Prop where
  inv : Inv w
  absent : ∀ i, s i = none → w.objs i = none
  slot : ∀ i sl, s i = some sl → ∃ b, View w i b ∧ SlotRel K sl b

theorem WRel.init : WRel K (Spec.Files.none : Spec.Files C) World.init :=
  ⟨⟨by simp [World.init], by simp [World.init], by simp [World.init]⟩, fun _ _ => rfl, by simp [Spec.Files.none]⟩

/-- a step of one object -/
theorem WRel.upd {s : Spec.Files C} {w w' : World C} {i : Nat} {b' : Buf C} {sl : Spec.Slot C} (h : WRel K s w)
    (hg : Good i w w' b') (hs : SlotRel K sl b') : WRel K (Function.update s i (some sl)) w' := by
  refine ⟨hg.2.1, fun j hj => ?_, fun j sl' hj => ?_⟩
  · by_cases hij : j = i
    · subst hij; simp at hj
    · rw [Function.update_of_ne hij] at hj
      rw [hg.2.2.objs j hij]; exact h.absent j hj
  · by_cases hij : j = i
    · subst hij
      simp only [Function.update_self, Option.some.injEq] at hj
      subst hj
      exact ⟨b', hg.1, hs⟩
    · rw [Function.update_of_ne hij] at hj
      obtain ⟨b, ⟨o, k, ho, hk, rfl⟩, hr⟩ := h.slot j sl' hj
      refine ⟨bufOf o k w'.fresh, ⟨o, k, by rw [hg.2.2.objs j hij]; exact ho, ?_, rfl⟩, hr.fresh w'.fresh⟩
      rw [hg.2.2.blocks j o hij ho]; exact hk

theorem WRel.same {s : Spec.Files C} {w : World C} (h : WRel K s w) {s' : Spec.Files C} (hs : s' = s) : WRel K s' w := hs ▸ h

/-- an object begins -/
theorem begin_step {s : Spec.Files C} {w : World C} (h : WRel K s w) {i : Nat} (hn : s i = none) (k : Block C) (p e : Ptr)
    {sl : Spec.Slot C} (hs : ∀ f, SlotRel K sl (bufOf ⟨w.fresh, p, e⟩ k f)) :
    ∃ w', W.begin_ i k p e w = .ok () w' ∧ w'.objs i = some ⟨w.fresh, p, e⟩ ∧ w'.blocks w.fresh = some k ∧
      (∀ j, j ≠ i → w'.objs j = w.objs j) ∧ (∀ g, g ≠ w.fresh → w'.blocks g = w.blocks g) ∧
      WRel K (Function.update s i (some sl)) w' := by
  have ho := h.absent i hn
  refine ⟨{ objs := Function.update w.objs i (some ⟨w.fresh, p, e⟩), blocks := Function.update w.blocks w.fresh (some k), fresh := w.fresh + 1 },
    by simp only [W.begin_, ho], by simp, by simp, fun j hj => by simp [hj], fun g hg => by simp [hg], ⟨⟨?_, ?_, ?_⟩, ?_, ?_⟩⟩
  · intro j o' h'
    simp only [Function.update_apply] at h'
    split at h'
    · cases h'; exact Nat.lt_succ_self _
    · exact Nat.lt_succ_of_lt (h.inv.lt j o' h')
  · intro j o' h'
    simp only [Function.update_apply] at h' ⊢
    split at h'
    · cases h'; exact ⟨k, by simp⟩
    · have := h.inv.lt j o' h'
      rw [if_neg (by omega)]
      exact h.inv.has j o' h'
  · intro j j' o1 o2 h1 h2 hg
    simp only [Function.update_apply] at h1 h2
    split at h1 <;> split at h2
    · simp_all
    · cases h1; have := h.inv.lt _ _ h2; simp only at hg; omega
    · cases h2; have := h.inv.lt _ _ h1; simp only at hg; omega
    · exact h.inv.inj _ _ _ _ h1 h2 hg
  · intro j hj
    by_cases hij : j = i
    · subst hij; simp at hj
    · rw [Function.update_of_ne hij] at hj
      simp only [Function.update_of_ne hij]
      exact h.absent j hj
  · intro j sl' hj
    by_cases hij : j = i
    · subst hij
      simp only [Function.update_self, Option.some.injEq] at hj
      subst hj
      exact ⟨_, ⟨⟨w.fresh, p, e⟩, k, by simp, by simp, rfl⟩, hs _⟩
    · rw [Function.update_of_ne hij] at hj
      obtain ⟨b, ⟨o, k', ho', hk, rfl⟩, hr⟩ := h.slot j sl' hj
      have := h.inv.lt j o ho'
      refine ⟨bufOf o k' (w.fresh + 1), ⟨o, k', by simp [hij, ho'], ?_, rfl⟩, hr.fresh (w.fresh + 1)⟩
      simp only
      rw [Function.update_of_ne (by omega)]; exact hk

/-- an object ends -/
theorem end_step {s : Spec.Files C} {w : World C} (h : WRel K s w) {i : Nat} {sl : Spec.Slot C} (hn : s i = some sl) :
    ∃ w', W.end_ i w = .ok () w' ∧ WRel K (Function.update s i none) w' := by
  obtain ⟨b, ⟨o, k, ho, hk, rfl⟩, hr⟩ := h.slot i sl hn
  refine ⟨{ w with objs := Function.update w.objs i none, blocks := Function.update w.blocks o.gen none },
    by simp only [W.end_, bind_apply, obj_apply ho, modify_apply], ⟨⟨?_, ?_, ?_⟩, ?_, ?_⟩⟩
  · intro j o' h'
    simp only [Function.update_apply] at h'
    split at h'
    · simp at h'
    · exact h.inv.lt j o' h'
  · intro j o' h'
    simp only [Function.update_apply] at h' ⊢
    split at h'
    · simp at h'
    · rename_i hij
      rw [if_neg (fun hg => hij (h.inv.inj _ _ _ _ h' ho hg))]
      exact h.inv.has j o' h'
  · intro j j' o1 o2 h1 h2 hg
    simp only [Function.update_apply] at h1 h2
    split at h1 <;> split at h2
    · simp at h1
    · simp at h1
    · simp at h2
    · exact h.inv.inj _ _ _ _ h1 h2 hg
  · intro j hj
    by_cases hij : j = i
    · subst hij; simp
    · rw [Function.update_of_ne hij] at hj
      simp only [Function.update_of_ne hij]
      exact h.absent j hj
  · intro j sl' hj
    by_cases hij : j = i
    · subst hij; simp at hj
    · rw [Function.update_of_ne hij] at hj
      obtain ⟨b, ⟨o', k', ho', hk', rfl⟩, hr'⟩ := h.slot j sl' hj
      refine ⟨bufOf o' k' w.fresh, ⟨o', k', by simp [hij, ho'], ?_, rfl⟩, hr'⟩
      simp only
      rw [Function.update_of_ne (fun hg => hij (h.inv.inj _ _ _ _ ho' ho hg))]; exact hk'

/-- `clear` works in any state -/
theorem clear_any {b : Buf C} (hf : K.Fits b.cap) :
    ∃ b', call K .clear b = some (.unit, b') ∧ Rel K Spec.init b' := by
  refine ⟨{ b with elems := [], pptr := dataPtr K b, epptr := dataPtr K b }, ?_, ?_⟩
  · simp only [call, exec, clear, bind_apply, modify_apply, data_apply, setp, pure_apply]; rfl
  · exact ⟨fun _ => rfl, fun _ => rfl, by simp [Spec.init], by simp, hf, by simp [Spec.init], by simp [Spec.init], by simp [Spec.init]⟩

/-- an absolute seek works whatever the put area was -/
theorem seek_any {b : Buf C} {y : Spec.File C} (hs : b.elems.length ≤ b.cap) (hf : K.Fits b.cap) (hc : Cont K y b) (ht : y.taken = false)
    (t : Int) (h0 : 0 ≤ t) (hl : t ≤ y.data.length) (h32 : t < 2147483648) :
    ∃ b', call K (.seek t .beg) b = some (.pos t, b') ∧ Rel K { y with pos := t.toNat } b' := by
  have h2 := hc.len
  obtain ⟨n, rfl⟩ := Int.eq_ofNat_of_zero_le h0
  have hn : n ≤ y.data.length := by omega
  have hcv : toInt32 (n : Int) = n := by unfold toInt32; omega
  refine ⟨{ b with pptr := ptr K b n, epptr := ptr K b b.elems.length }, ?_, ?_⟩
  · simp only [call, exec, seekoff, seekpos, bind_apply, get_apply, data_apply, hcv, shift_data b n (by omega), shift_data b _ hs, setp,
      modify_apply, pure_apply]
  · exact ⟨fun _ => rfl, fun _ => rfl, by simp [ht], hs, hf, by simpa using hn, h2, hc.elems⟩

/-- the constructor -/
theorem ctor_step (hK : K.Lawful) {s : Spec.Files C} {w : World C} (h : WRel K s w) {i n : Nat} (hn : s i = none) :
    if K.Fits n then ∃ w', W.ctor K i n w = .ok () w' ∧ WRel K (Function.update s i (some ⟨some Spec.init, false⟩)) w'
    else ∃ e w', W.ctor K i n w = .throw e w' ∧ WRel K s w' := by
  have hsl : ∀ f, SlotRel K ⟨none, true⟩ (bufOf ⟨w.fresh, .null, .null⟩ (⟨[], K.cap0⟩ : Block C) f) := fun f =>
    ⟨by simp [bufOf], hK.cap0_fits, by simp, by simp⟩
  obtain ⟨w1, e1, ho1, hk1, -, -, hr1⟩ := begin_step h hn ⟨[], K.cap0⟩ .null .null hsl
  have hv1 : View w1 i (bufOf ⟨w.fresh, .null, .null⟩ ⟨[], K.cap0⟩ w1.fresh) := ⟨_, _, ho1, hk1, rfl⟩
  generalize hb1 : bufOf ⟨w.fresh, .null, .null⟩ (⟨[], K.cap0⟩ : Block C) w1.fresh = b1 at hv1
  have hsz : b1.elems.length ≤ b1.cap := by subst hb1; simp [bufOf]
  have hft : K.Fits b1.cap := by subst hb1; exact hK.cap0_fits
  have hel : b1.elems = [] := by subst hb1; rfl
  -- setp(data, data)
  have hsim := Sim.bind (Sim.data (K := K) (i := i)) (G := fun d => W.setp i d d) (g := fun d => setp d d) (fun d => Sim.setp d d) w1 b1 hr1.inv hv1
  have e2 : (data K >>= fun d => setp d d : Mem C Unit) b1 = .ok () { b1 with pptr := dataPtr K b1, epptr := dataPtr K b1 } := by
    simp only [bind_apply, data_apply, setp, modify_apply]
  rw [e2] at hsim
  generalize hX : (W.data K i >>= fun d => W.setp i d d : W.Mem C Unit) w1 = X at hsim
  cases X with
  | throw => exact hsim.elim
  | ub => exact hsim.elim
  | ok a w2 =>
    obtain ⟨-, hg2⟩ := hsim
    have hrel2 : Rel K Spec.init { b1 with pptr := dataPtr K b1, epptr := dataPtr K b1 } :=
      ⟨fun _ => rfl, fun _ => by simp [hel]; rfl, by simp [Spec.init], hsz, hft, by simp [Spec.init], by simp [Spec.init], by simp [Spec.init]⟩
    have hr2 : WRel K (Function.update s i (some ⟨none, true⟩)) w2 := by
      have := hr1.upd hg2 (sl := ⟨none, true⟩) ⟨hsz, hft, by simp, by simp⟩
      simpa using this
    have hX' : ∀ F : W.Mem C Unit, (do let d ← W.data K i; W.setp i d d; F) w1 = F w2 := by
      intro F
      simp only [bind_apply] at hX ⊢
      cases hd : W.data K i w1 with
      | ok d w1' => simp only [hd] at hX; simp only [hX]
      | throw => simp [hd] at hX
      | ub => simp [hd] at hX
    have hctor : W.ctor K i n w = (fun w => match W.capResizeBy K i n w with
        | .throw e w => (do W.end_ i; .raise e : W.Mem C Unit) w
        | r => r) w2 := by
      unfold W.ctor
      rw [bind_apply, e1]
      exact hX' _
    have hsim3 := Sim.capResizeBy (K := K) (i := i) n w2 _ hg2.2.1 hg2.1
    by_cases hf : K.Fits n
    · rw [if_pos hf]
      obtain ⟨b3, e3, hrel3, -⟩ := capResizeBy_ok hK.grows hrel2 rfl n (by simpa [hel] using hf)
      rw [e3] at hsim3
      generalize hY : W.capResizeBy K i n w2 = Y at hsim3
      cases Y with
      | throw => exact hsim3.elim
      | ub => exact hsim3.elim
      | ok a w3 =>
        obtain ⟨-, hg3⟩ := hsim3
        refine ⟨w3, by rw [hctor]; simp only [hY], ?_⟩
        have := hr2.upd hg3 (hrel3.slot false)
        simpa using this
    · rw [if_neg hf]
      have e3 := capResizeBy_throw hrel2 rfl n (by simpa [hel] using hf)
      rw [e3] at hsim3
      generalize hY : W.capResizeBy K i n w2 = Y at hsim3
      cases Y with
      | ok => exact hsim3.elim
      | ub => exact hsim3.elim
      | throw e w3 =>
        obtain ⟨-, hg3⟩ := hsim3
        have hr3 := hr2.upd hg3 (sl := ⟨none, true⟩) ⟨hsz, hft, by simp, by simp⟩
        obtain ⟨w4, e4, hr4⟩ := end_step hr3 (i := i) (by simp; rfl)
        refine ⟨e, w4, by rw [hctor]; simp only [hY, bind_apply, e4, raise_apply], ?_⟩
        refine hr4.same ?_
        funext j
        by_cases hj : j = i
        · subst hj; simp [hn]
        · simp [hj]

theorem update_obj {w : World C} {i : Nat} {o : Obj} (ho : w.objs i = some o) : Function.update w.objs i (some o) = w.objs := by
  rw [← ho]; exact Function.update_eq_self _ _

/-- assigning a container, the put area being set already -/
theorem assign_step (hT : T.Lawful K) {s : Spec.Files C} {w : World C} (h : WRel K s w) {i : Nat} {oi : Obj} {ki : Block C}
    (ho : w.objs i = some oi) (hki : K.Fits ki.cap) (l : List C) (hl : K.Fits l.length) {y : Spec.File C}
    (hy : Cont K y (bufOf oi ⟨l, 0⟩ 0)) :
    ∃ w', (match T.assignCap ki.cap l.length with
      | none => W.refill i { ki with elems := l }
      | some m => W.reallocate i ⟨l, m⟩ : W.Mem C Unit) w = .ok () w' ∧
      (∃ b', Good i w w' b') ∧ (∃ o', w'.objs i = some o' ∧ o'.pptr = oi.pptr ∧ o'.epptr = oi.epptr) ∧
      WRel K (Function.update s i (some ⟨some y, true⟩)) w' := by
  cases ha : T.assignCap ki.cap l.length with
  | none =>
    have hg := Good.same h.inv ho oi.pptr oi.epptr { ki with elems := l }
    rw [show ({ oi with pptr := oi.pptr, epptr := oi.epptr } : Obj) = oi from rfl, update_obj ho] at hg
    refine ⟨_, by simp only [W.refill, bind_apply, obj_apply ho, modify_apply], ⟨_, hg⟩, ⟨oi, ho, rfl, rfl⟩, h.upd hg ⟨?_, hki, ?_, by simp⟩⟩
    · exact hT.assign_keep _ _ ha
    · intro y' hy'; cases hy'
      exact ⟨hy.pos, hy.len, hy.elems, hy.taken⟩
  | some m =>
    have hg := Good.new h.inv ho oi.pptr oi.epptr ⟨l, m⟩
    refine ⟨_, by simp only [W.reallocate, bind_apply, obj_apply ho, modify_apply], ⟨_, hg⟩,
      ⟨⟨w.fresh, oi.pptr, oi.epptr⟩, by simp, rfl, rfl⟩, h.upd hg ⟨?_, ?_, ?_, by simp⟩⟩
    · exact hT.assign_ge _ _ _ ha
    · exact hT.assign_fits _ _ _ ha hl
    · intro y' hy'; cases hy'
      exact ⟨hy.pos, hy.len, hy.elems, hy.taken⟩

/-- the setting of the put area of an object the specification knows nothing of -/
theorem setp_step {s : Spec.Files C} {w : World C} (h : WRel K s w) {i : Nat} {sl : Spec.Slot C} (hs : s i = some sl) (p e : Ptr) :
    ∃ w' oi ki, W.setp i p e w = .ok () w' ∧ w.objs i = some oi ∧ w.blocks oi.gen = some ki ∧ ki.elems.length ≤ ki.cap ∧ K.Fits ki.cap ∧
      w'.objs i = some { oi with pptr := p, epptr := e } ∧ w'.blocks = w.blocks ∧ w'.fresh = w.fresh ∧ (∀ j, j ≠ i → w'.objs j = w.objs j) ∧
      WRel K (Function.update s i (some ⟨none, true⟩)) w' := by
  obtain ⟨b, ⟨o, k, ho, hk, rfl⟩, hr⟩ := h.slot i sl hs
  have hg := Good.same h.inv ho p e k
  have he : Function.update w.blocks o.gen (some k) = w.blocks := by rw [← hk]; exact Function.update_eq_self _ _
  rw [he] at hg
  refine ⟨{ w with objs := Function.update w.objs i (some { o with pptr := p, epptr := e }) }, o, k,
    by simp only [W.setp, bind_apply, obj_apply ho, modify_apply], ho, hk, hr.size, hr.fits, by simp, rfl, rfl,
    fun j hj => by simp [hj], h.upd hg ⟨hr.size, hr.fits, by simp, by simp⟩⟩

/-- moving the container, the put area being copied already -/
theorem moveData_step (hK : K.Lawful) (hT : T.Lawful K) {s : Spec.Files C} {w : World C} (h : WRel K s w) {i j : Nat} (hij : i ≠ j)
    {sl : Spec.Slot C} {y : Spec.File C} {f : Bool} (hsi : s i = some sl) (hsj : s j = some ⟨some y, f⟩) {oi oj : Obj}
    (ho : w.objs i = some oi) (hoj : w.objs j = some oj) (hp : oi.pptr = oj.pptr) (he : oi.epptr = oj.epptr) (g : Bool)
    (hg : g = false → f = false ∧ Spec.TakesOver T) :
    ∃ w', W.moveData K T i j w = .ok () w' ∧
      WRel K (Function.update (Function.update s i (some ⟨some y, g⟩)) j (some ⟨none, true⟩)) w' ∧
      (∃ o, w'.objs i = some o ∧ o.pptr = oj.pptr ∧ o.epptr = oj.epptr) ∧
      ∃ o, w'.objs j = some o ∧ o.pptr = oj.pptr ∧ o.epptr = oj.epptr ∧ ((∀ c, T.steals c = false) → o = oj) := by
  obtain ⟨bi, ⟨oi', ki, ho', hki, rfl⟩, hri⟩ := h.slot i sl hsi
  obtain ⟨bj, ⟨oj', kj, hoj', hkj, rfl⟩, hrj⟩ := h.slot j _ hsj
  obtain rfl : oi = oi' := by rw [ho] at ho'; exact Option.some.inj ho'
  obtain rfl : oj = oj' := by rw [hoj] at hoj'; exact Option.some.inj hoj'
  simp only [W.moveData, bind_apply, obj_apply ho, obj_apply hoj, block_apply hoj hkj]
  have hne : oi.gen ≠ oj.gen := fun hgen => hij (h.inv.inj _ _ _ _ ho hoj hgen)
  by_cases hst : T.steals kj.cap = true
  · simp only [hst, if_true, modify_apply]
    refine ⟨_, rfl, ⟨⟨?_, ?_, ?_⟩, ?_, ?_⟩, ⟨{ oi with gen := oj.gen }, by simp [hij], hp, he⟩,
      ⟨{ oj with gen := w.fresh }, by simp, rfl, rfl, fun hn => by simp [hn] at hst⟩⟩
    · intro a o' h'
      simp only [Function.update_apply] at h'
      split at h'
      · cases h'; exact Nat.lt_succ_self _
      · split at h'
        · cases h'; exact Nat.lt_succ_of_lt (h.inv.lt j oj hoj)
        · exact Nat.lt_succ_of_lt (h.inv.lt _ _ h')
    · intro a o' h'
      simp only [Function.update_apply] at h' ⊢
      split at h'
      · cases h'; exact ⟨⟨[], K.cap0⟩, by simp⟩
      · split at h'
        · cases h'
          have := h.inv.lt j oj hoj
          simp only
          rw [if_neg (by omega), if_neg (fun hh => hne hh.symm)]
          exact ⟨kj, hkj⟩
        · rename_i h1 h2
          have := h.inv.lt _ _ h'
          rw [if_neg (by omega), if_neg (fun hh => h2 (h.inv.inj _ _ _ _ h' ho hh))]
          exact h.inv.has _ _ h'
    · intro a a' o1 o2 h1 h2 hgen
      have hlt := h.inv.lt j oj hoj
      simp only [Function.update_apply] at h1 h2
      split at h1 <;> split at h2
      · simp_all
      · split at h2
        · cases h1; cases h2; simp only at hgen; omega
        · cases h1; have := h.inv.lt _ _ h2; simp only at hgen; omega
      · split at h1
        · cases h1; cases h2; simp only at hgen; omega
        · cases h2; have := h.inv.lt _ _ h1; simp only at hgen; omega
      · rename_i hn1 hn2
        split at h1 <;> split at h2
        · simp_all
        · cases h1; exact absurd (h.inv.inj _ _ _ _ hoj h2 hgen).symm hn2
        · cases h2; exact absurd (h.inv.inj _ _ _ _ h1 hoj hgen) hn1
        · exact h.inv.inj _ _ _ _ h1 h2 hgen
    · intro a ha
      by_cases haj : a = j
      · subst haj; simp at ha
      · rw [Function.update_of_ne haj] at ha
        by_cases hai : a = i
        · subst hai; simp at ha
        · rw [Function.update_of_ne hai] at ha
          simp only [Function.update_of_ne haj, Function.update_of_ne hai]
          exact h.absent a ha
    · intro a sl' ha
      by_cases haj : a = j
      · subst haj
        simp only [Function.update_self, Option.some.injEq] at ha
        subst ha
        exact ⟨_, ⟨{ oj with gen := w.fresh }, ⟨[], K.cap0⟩, by simp, by simp, rfl⟩, ⟨by simp [bufOf], hK.cap0_fits, by simp, by simp⟩⟩
      · rw [Function.update_of_ne haj] at ha
        by_cases hai : a = i
        · subst hai
          simp only [Function.update_self, Option.some.injEq] at ha
          subst ha
          have hlt := h.inv.lt j oj hoj
          refine ⟨_, ⟨{ oi with gen := oj.gen }, kj, by simp [haj], ?_, rfl⟩, ?_⟩
          · simp only
            rw [Function.update_of_ne (by omega), Function.update_of_ne (fun hh => hne hh.symm)]
            exact hkj
          · have hb : ∀ f', bufOf { oi with gen := oj.gen } kj f' = { bufOf oj kj w.fresh with fresh := f' } := by
              intro f'; simp only [bufOf, hp, he]
            rw [hb]
            refine ⟨hrj.size, hrj.fits, fun y' hy' => ?_, fun y' hy' hb' => ?_⟩
            · cases hy'; exact (hrj.fresh _).cont y rfl
            · cases hy'; exact (hrj.rel y rfl (hg hb').1).fresh _
        · rw [Function.update_of_ne hai] at ha
          obtain ⟨b, ⟨o', k', ho', hk', rfl⟩, hr'⟩ := h.slot a sl' ha
          have hlt := h.inv.lt a o' ho'
          refine ⟨bufOf o' k' (w.fresh + 1), ⟨o', k', by simp [haj, hai, ho'], ?_, rfl⟩, hr'.fresh _⟩
          simp only
          rw [Function.update_of_ne (by omega), Function.update_of_ne (fun hh => hai (h.inv.inj _ _ _ _ ho' ho hh))]
          exact hk'
  · have hgt : g = true := by
      cases hgv : g with
      | true => rfl
      | false => exact absurd ((hg hgv).2 kj.cap) hst
    subst hgt
    have hcy := hrj.cont y rfl
    obtain ⟨w1, e1, ⟨b1, hg1⟩, ⟨o', hf1, hf2, hf3⟩, hr1⟩ := assign_step (ki := ki) hT h ho hri.fits kj.elems (hrj.fits.mono hrj.size) (y := y)
      ⟨hcy.pos, hcy.len, hcy.elems, hcy.taken⟩
    have hoj1 : w1.objs j = some oj := by rw [hg1.2.2.objs j (fun hh => hij hh.symm)]; exact hoj
    have hkj1 : w1.blocks oj.gen = some kj := by rw [hg1.2.2.blocks j oj (fun hh => hij hh.symm) hoj]; exact hkj
    have hg2 := Good.same hr1.inv hoj1 oj.pptr oj.epptr { kj with elems := T.left kj.elems }
    rw [show ({ oj with pptr := oj.pptr, epptr := oj.epptr } : Obj) = oj from rfl, update_obj hoj1] at hg2
    refine ⟨_, ?_, hr1.upd hg2 (sl := ⟨none, true⟩) ⟨?_, hrj.fits, by simp, by simp⟩, ⟨o', hf1, hf2.trans hp, hf3.trans he⟩,
      ⟨oj, hoj1, rfl, rfl, fun _ => rfl⟩⟩
    · simp only [hst, Bool.false_eq_true, if_false, bind_apply, block_apply ho hki]
      revert e1
      have hre : W.refill j { kj with elems := T.left kj.elems } w1 = .ok ()
          { w1 with blocks := Function.update w1.blocks oj.gen (some { kj with elems := T.left kj.elems }) } := by
        simp only [W.refill, bind_apply, obj_apply hoj1, modify_apply]
      cases T.assignCap ki.cap kj.elems.length <;> intro e1 <;> simp only at e1 <;>
        simp only [bind_apply, e1, hre]
    · exact Nat.le_trans (hT.left_le _) hrj.size

open Classical in
/-- One call. -/
theorem wcall_step (hK : K.Lawful) (hT : T.Lawful K) {op : WOp C} {s s' : Spec.Files C} {w : World C} {r} (h : WRel K s w)
    (hs : Spec.WSafe K op s) (hc : Spec.wcall K T op s = some (r, s')) :
    ∃ w', wcall K T op w = some (r, w') ∧ WRel K s' w' := by
  cases op with
  | new i n =>
    simp only [Spec.wcall] at hc
    cases hsi : s i with
    | some sl => simp [hsi] at hc
    | none =>
      have := ctor_step hK h (n := n) hsi
      simp only [hsi, Option.isSome_none, Bool.false_eq_true, if_false] at hc
      by_cases hf : K.Fits n
      · rw [if_pos hf] at this hc
        obtain ⟨w', e, hr⟩ := this
        cases hc
        exact ⟨w', by simp [wcall, wexec, e], hr⟩
      · rw [if_neg hf] at this hc
        obtain ⟨x, w', e, hr⟩ := this
        cases hc
        exact ⟨w', by simp [wcall, wexec, e], hr⟩
  | on i op =>
    simp only [Spec.wcall] at hc
    cases hsi : s i with
    | none => simp [hsi] at hc
    | some sl =>
      obtain ⟨b, hv, hsr⟩ := h.slot i sl hsi
      obtain ⟨file, bor⟩ := sl
      cases file with
      | none =>
        simp only [hsi] at hc
        cases op with
        | clear =>
          cases hc
          obtain ⟨b', e, hr⟩ := clear_any hsr.fits
          obtain ⟨w', e', hg⟩ := wcall_on (T := T) h.inv hv e
          exact ⟨w', e', h.upd hg (hr.slot false)⟩
        | _ => simp at hc
      | some y =>
        simp only [hsi] at hc
        simp only [Spec.WSafe, hsi] at hs
        obtain ⟨hsafe, hbor⟩ := hs
        cases hcc : Spec.call K op y with
        | none => simp [hcc] at hc
        | some p =>
          obtain ⟨r', y'⟩ := p
          simp only [hcc, Option.some.injEq, Prod.mk.injEq] at hc
          obtain ⟨rfl, rfl⟩ := hc
          have key : ∃ b', call K op b = some (r', b') ∧ Rel K y' b' := by
            cases hb : bor with
            | false => exact call_step hK (hsr.rel y rfl hb) hsafe hcc
            | true =>
              rcases hbor hb with rfl | ⟨off, rfl⟩
              · simp only [Spec.call, Option.some.injEq, Prod.mk.injEq] at hcc
                obtain ⟨rfl, rfl⟩ := hcc
                exact clear_any hsr.fits
              · simp only [Spec.call] at hcc
                split at hcc
                · rename_i hb
                  simp only [Option.some.injEq, Prod.mk.injEq] at hcc
                  obtain ⟨rfl, rfl⟩ := hcc
                  have ht : y.taken = false := by
                    cases htk : y.taken with
                    | false => rfl
                    | true => exact absurd (hsafe.1 htk) (by simp)
                  exact seek_any hsr.size hsr.fits (hsr.cont y rfl) ht off hb.1 hb.2 hsafe.2.1
                · simp at hcc
          obtain ⟨b', e, hr⟩ := key
          obtain ⟨w', e', hg⟩ := wcall_on (T := T) h.inv hv e
          exact ⟨w', e', h.upd hg (hr.slot false)⟩
  | copy i j =>
    simp only [Spec.wcall] at hc
    split at hc
    · rename_i hsi hsj
      cases hc
      rename_i y f
      obtain ⟨bj, ⟨oj, kj, hoj, hkj, rfl⟩, hrj⟩ := h.slot j _ hsj
      have hcy := hrj.cont y rfl
      have hfit : K.Fits kj.elems.length := hrj.fits.mono hrj.size
      obtain ⟨w', e, -, -, -, -, hr⟩ := begin_step h hsi ⟨kj.elems, T.copyCap kj.elems.length⟩ oj.pptr oj.epptr (sl := ⟨some y, true⟩)
        (fun f => ⟨hT.copy_ge _, hT.copy_fits _ hfit, fun y' hy' => by cases hy'; exact ⟨hcy.pos, hcy.len, hcy.elems, hcy.taken⟩, by simp⟩)
      exact ⟨w', by simp [wcall, wexec, W.copyCtor, obj_apply hoj, block_apply hoj hkj, e], hr⟩
    · simp at hc
  | move i j =>
    simp only [Spec.wcall] at hc
    split at hc
    · rename_i hsi hsj
      cases hc
      rename_i y f
      have hij : i ≠ j := by rintro rfl; rw [hsi] at hsj; simp at hsj
      obtain ⟨bj, ⟨oj, kj, hoj, hkj, rfl⟩, hrj⟩ := h.slot j _ hsj
      obtain ⟨w1, e1, ho1, hk1, hob, -, hr1⟩ := begin_step h hsi ⟨[], K.cap0⟩ oj.pptr oj.epptr (sl := ⟨none, true⟩)
        (fun f => ⟨by simp [bufOf], hK.cap0_fits, by simp, by simp⟩)
      obtain ⟨w', e2, hr2, -, -⟩ := moveData_step hK hT hr1 hij (y := y) (f := f) (sl := ⟨none, true⟩) (oj := oj) (by simp)
        (by rw [Function.update_of_ne (fun hh => hij hh.symm)]; exact hsj) ho1
        (by rw [hob j (fun hh => hij hh.symm)]; exact hoj) rfl rfl (f || !decide (Spec.TakesOver T)) (by simp)
      refine ⟨w', by simp [wcall, wexec, W.moveCtor, obj_apply hoj, e1, e2], ?_⟩
      simpa using hr2
    · simp at hc
  | assign i j =>
    simp only [Spec.wcall] at hc
    split at hc
    · rename_i hsi hsj
      cases hc
      rename_i sl y f
      obtain ⟨bj, ⟨oj, kj, hoj, hkj, rfl⟩, hrj⟩ := h.slot j _ hsj
      have hcy := hrj.cont y rfl
      obtain ⟨w1, oi, ki, e1, hoi, hki, hsz, hft, ho1, hb1, -, -, hr1⟩ := setp_step h hsi oj.pptr oj.epptr
      by_cases hij : i = j
      · subst hij
        obtain rfl : oi = oj := by rw [hoi] at hoj; exact Option.some.inj hoj
        refine ⟨w, ?_, by simpa using h⟩
        simp only [W.setp, bind_apply, obj_apply hoi, modify_apply, Res.ok.injEq, true_and] at e1
        rw [show ({ oi with pptr := oi.pptr, epptr := oi.epptr } : Obj) = oi from rfl, update_obj hoi] at e1
        simp [wcall, wexec, W.copyAssign, obj_apply hoj, block_apply hoj hkj, W.setp, update_obj hoi]
      · obtain ⟨w', e2, -, -, hr2⟩ := assign_step (ki := ki) hT hr1 ho1 hft kj.elems (hrj.fits.mono hrj.size) (y := y)
          ⟨hcy.pos, hcy.len, hcy.elems, hcy.taken⟩
        refine ⟨w', ?_, ?_⟩
        · revert e2
          cases hac : T.assignCap ki.cap kj.elems.length <;> intro e2 <;> simp only at e2 <;>
            simp [wcall, wexec, W.copyAssign, obj_apply hoj, block_apply hoj hkj, block_apply hoi hki, e1, hij, hac, e2]
        · simpa [hij] using hr2
    · simp at hc
  | moveAssign i j =>
    simp only [Spec.wcall] at hc
    split at hc
    · rename_i hsi hsj
      rename_i sl y f
      split at hc
      · simp at hc
      · rename_i hij
        cases hc
        obtain ⟨bj, ⟨oj, kj, hoj, hkj, rfl⟩, hrj⟩ := h.slot j _ hsj
        obtain ⟨w1, oi, ki, e1, hoi, hki, hsz, hft, ho1, hb1, -, hob, hr1⟩ := setp_step h hsi oj.pptr oj.epptr
        obtain ⟨w', e2, hr2, -, -⟩ := moveData_step hK hT hr1 hij (y := y) (f := f) (sl := ⟨none, true⟩) (oj := oj) (by simp)
          (by rw [Function.update_of_ne (fun hh => hij hh.symm)]; exact hsj) ho1
          (by rw [hob j (fun hh => hij hh.symm)]; exact hoj) rfl rfl (f || !decide (Spec.TakesOver T)) (by simp)
        refine ⟨w', by simp [wcall, wexec, W.moveAssign, obj_apply hoj, obj_apply hoi, hij, e1, e2], ?_⟩
        simpa using hr2
    · simp at hc
  | destroy i =>
    simp only [Spec.wcall] at hc
    cases hsi : s i with
    | none => simp [hsi] at hc
    | some sl =>
      simp only [hsi, Option.isSome_some, if_true, Option.some.injEq, Prod.mk.injEq] at hc
      obtain ⟨rfl, rfl⟩ := hc
      obtain ⟨w', e, hr⟩ := end_step h hsi
      exact ⟨w', by simp [wcall, wexec, e], hr⟩

/-- Histories. -/
theorem wrun_rel (hK : K.Lawful) (hT : T.Lawful K) {ops : List (WOp C)} {s s' : Spec.Files C} {w : World C} {rs} (h : WRel K s w)
    (hs : Spec.WSafeRun K T ops s) (hc : Spec.wrun K T ops s = some (rs, s')) :
    ∃ w', wrun K T ops w = some (rs, w') ∧ WRel K s' w' := by
  induction ops generalizing s w rs with
  | nil =>
    simp only [Spec.wrun, Option.some.injEq, Prod.mk.injEq] at hc
    obtain ⟨rfl, rfl⟩ := hc
    exact ⟨w, rfl, h⟩
  | cons op ops ih =>
    simp only [Spec.wrun, Option.bind_eq_bind, Option.bind_eq_some_iff, Option.some.injEq] at hc
    obtain ⟨⟨r, s1⟩, h1, ⟨rs', s2⟩, h2, h3⟩ := hc
    simp only [Prod.mk.injEq] at h3
    obtain ⟨rfl, rfl⟩ := h3
    obtain ⟨w1, e1, hr1⟩ := wcall_step hK hT h hs.1 h1
    obtain ⟨w2, e2, hr2⟩ := ih hr1 (hs.2 _ _ h1) h2
    exact ⟨w2, by simp [wrun, e1, e2], hr2⟩

theorem wrun_append (a b : List (WOp C)) (w : World C) :
    wrun K T (a ++ b) w = (wrun K T a w).bind fun p => (wrun K T b p.2).map fun q => (p.1 ++ q.1, q.2) := by
  induction a generalizing w with
  | nil => simp [wrun]
  | cons op a ih =>
    simp only [List.cons_append, wrun, Option.bind_eq_bind]
    cases wcall K T op w with
    | none => simp
    | some p =>
      simp only [Option.bind_some, ih]
      cases wrun K T a p.2 with
      | none => simp
      | some q =>
        simp only [Option.bind_some]
        cases wrun K T b q.2 <;> simp

end Itlib.MemOut
