import Verif.MemOut.CopyStep
import Verif.MemOut.Props

/-!
# Properties of copied, moved and assigned `mem_ostreambuf`s (C64)

All theorems hold for every container that obeys the container laws (`Container.Lawful`) and however it copies and moves
(`Transfer.Lawful`).
-/
namespace Itlib.MemOut
open Itlib M
variable {C : Type} {K : Container C} {T : Transfer C}

/-- writing through a put area that lies in any existing allocation -/
theorem put_through {w : World C} {a g p e : Nat} {o : Obj} {k : Block C} (ho : w.objs a = some o) (hp : o.pptr = .at g p)
    (he : o.epptr = .at g e) (hk : w.blocks g = some k) (hlt : p < e) (hl : p + 1 ≤ k.elems.length) (hc : k.elems.length ≤ k.cap) (c : C) :
    wcall K T (.on a (.put c)) w = some (.unit, { w with
      objs := Function.update w.objs a (some { o with pptr := .at g (p + 1) })
      blocks := Function.update w.blocks g (some { k with elems := k.elems.set p c }) }) := by
  have h1 : (0 : Int) < (e : Int) - p := by omega
  have h2 : (0 : Int) ≤ (p : Int) + 1 ∧ (p : Int) + 1 ≤ k.cap := by omega
  have h3 : ((p : Int) + 1).toNat = p + 1 := by omega
  have h4 : k.elems.take p ++ [c] ++ k.elems.drop (p + 1) = k.elems.set p c := by
    rw [List.set_eq_take_append_cons_drop, if_pos (by omega)]; simp
  simp only [wcall, wexec, W.exec, W.sputc, bind_apply, hp, he, W.diff, M.load, hk, pure_apply, h1, if_true, W.copyTo,
    List.length_singleton, hl, modify_apply, h4, W.pbump, W.obj, ho, W.shift, Function.update_self, h2, h3, W.setp, and_self]

theorem update_id {β : Type} {f : Nat → β} {a : Nat} {v : β} (h : f a = v) : Function.update f a v = f := by
  subst h; exact Function.update_eq_self _ _

/-- writing through a put area that is that of another object -/
theorem put_through_rel {s : Spec.Files C} {w : World C} (h : WRel K s w) {a x : Nat} (hax : a ≠ x) {f : Option (Spec.File C)}
    {y : Spec.File C} (hsa : s a = some ⟨f, true⟩) (hsx : s x = some ⟨some y, false⟩) (ht : y.taken = false) (hpos : y.pos < y.data.length)
    {oa ox : Obj} (hoa : w.objs a = some oa) (hox : w.objs x = some ox) (hp : oa.pptr = ox.pptr) (he : oa.epptr = ox.epptr) (c : C) :
    ∃ w', wcall K T (.on a (.put c)) w = some (.unit, w') ∧
      WRel K (Function.update s x (some ⟨some { y with data := y.data.set y.pos c }, false⟩)) w' := by
  obtain ⟨_, ⟨ox', kx, hox', hkx, rfl⟩, hrx⟩ := h.slot x _ hsx
  obtain rfl : ox = ox' := by rw [hox] at hox'; exact Option.some.inj hox'
  have hrel := hrx.rel y rfl rfl
  have h2 := hrel.len; have h3 := hrel.size
  simp only [bufOf] at h2 h3
  have hnn : ¬ (K.nullEmpty && kx.cap == 0) = true := by
    intro hc
    simp only [Bool.and_eq_true, beq_iff_eq] at hc
    omega
  have hpx : ox.pptr = .at ox.gen y.pos := by
    have := hrel.pptr ht
    simpa [ptr, bufOf, hnn] using this
  have hex : ox.epptr = .at ox.gen kx.elems.length := by
    have := hrel.epptr ht
    simpa [ptr, bufOf, hnn] using this
  refine ⟨_, put_through (T := T) hoa (hp.trans hpx) (he.trans hex) hkx (by omega) (by omega) h3 c, ?_⟩
  -- first the container of `x`, then the put area of `a`
  have hg1 := Good.same h.inv hox ox.pptr ox.epptr { kx with elems := kx.elems.set y.pos c }
  rw [show ({ ox with pptr := ox.pptr, epptr := ox.epptr } : Obj) = ox from rfl, update_obj hox] at hg1
  have hr1 := h.upd hg1 (sl := ⟨some { y with data := y.data.set y.pos c }, false⟩) (Rel.slot (f := false) (by
    refine ⟨fun _ => ?_, fun _ => ?_, by simp [ht], by simpa [bufOf] using h3, hrel.fits, by simpa using hrel.pos, by simpa [bufOf] using h2, ?_⟩
    · simp [bufOf, ptr, hnn, hpx]
    · simp [bufOf, ptr, hnn, hex]
    · have := hrel.elems
      simp only [bufOf] at this ⊢
      rw [List.length_set, List.take_set, this]))
  obtain ⟨_, ⟨oa', ka, hoa', hka, rfl⟩, hra⟩ := hr1.slot a ⟨f, true⟩ (by rw [Function.update_of_ne hax]; exact hsa)
  simp only at hoa' hka
  obtain rfl : oa = oa' := by rw [hoa] at hoa'; exact Option.some.inj hoa'
  have hg2 := Good.same hr1.inv (i := a) (o := oa) hoa' (.at ox.gen (y.pos + 1)) oa.epptr ka
  have hr2 := hr1.upd hg2 (sl := ⟨f, true⟩) ⟨hra.size, hra.fits,
    fun y' hy' => ⟨(hra.cont y' hy').pos, (hra.cont y' hy').len, (hra.cont y' hy').elems, (hra.cont y' hy').taken⟩, by simp⟩
  have e1 : Function.update (Function.update s x (some ⟨some { y with data := y.data.set y.pos c }, false⟩)) a (some ⟨f, true⟩) =
      Function.update s x (some ⟨some { y with data := y.data.set y.pos c }, false⟩) := by
    exact update_id (by rw [Function.update_of_ne hax]; exact hsa)
  have e2 : Function.update (Function.update w.blocks ox.gen (some { kx with elems := kx.elems.set y.pos c })) oa.gen (some ka) =
      Function.update w.blocks ox.gen (some { kx with elems := kx.elems.set y.pos c }) := by
    exact update_id hka
  rw [e1] at hr2
  simp only [e2] at hr2
  exact hr2

/-- what a copy is -/
theorem copy_info (hT : T.Lawful K) {s : Spec.Files C} {w : World C} (h : WRel K s w) {i j : Nat} {y : Spec.File C} {f : Bool}
    (hsi : s i = none) (hsj : s j = some ⟨some y, f⟩) :
    ∃ w' oi oj, wcall K T (.copy i j) w = some (.unit, w') ∧ WRel K (Function.update s i (some ⟨some y, true⟩)) w' ∧
      w'.objs i = some oi ∧ w'.objs j = some oj ∧ oi.pptr = oj.pptr ∧ oi.epptr = oj.epptr := by
  have hij : i ≠ j := by rintro rfl; rw [hsi] at hsj; simp at hsj
  obtain ⟨_, ⟨oj, kj, hoj, hkj, rfl⟩, hrj⟩ := h.slot j _ hsj
  have hcy := hrj.cont y rfl
  have hfit : K.Fits kj.elems.length := hrj.fits.mono hrj.size
  obtain ⟨w', e, ho, hk, hob, -, hr⟩ := begin_step h hsi ⟨kj.elems, T.copyCap kj.elems.length⟩ oj.pptr oj.epptr (sl := ⟨some y, true⟩)
    (fun f => ⟨hT.copy_ge _, hT.copy_fits _ hfit, fun y' hy' => by cases hy'; exact ⟨hcy.pos, hcy.len, hcy.elems, hcy.taken⟩, by simp⟩)
  exact ⟨w', ⟨w.fresh, oj.pptr, oj.epptr⟩, oj, by simp [wcall, wexec, W.copyCtor, obj_apply hoj, block_apply hoj hkj, e], hr, ho,
    by rw [hob j (fun hh => hij hh.symm)]; exact hoj, rfl, rfl⟩

/-- what an assigned-to object is -/
theorem assign_info (hT : T.Lawful K) {s : Spec.Files C} {w : World C} (h : WRel K s w) {i j : Nat} (hij : i ≠ j) {sl : Spec.Slot C}
    {y : Spec.File C} {f : Bool} (hsi : s i = some sl) (hsj : s j = some ⟨some y, f⟩) :
    ∃ w' oi oj, wcall K T (.assign i j) w = some (.unit, w') ∧ WRel K (Function.update s i (some ⟨some y, true⟩)) w' ∧
      w'.objs i = some oi ∧ w'.objs j = some oj ∧ oi.pptr = oj.pptr ∧ oi.epptr = oj.epptr := by
  have hji : j ≠ i := fun hh => hij hh.symm
  obtain ⟨_, ⟨oj, kj, hoj, hkj, rfl⟩, hrj⟩ := h.slot j _ hsj
  have hcy := hrj.cont y rfl
  obtain ⟨w1, oi, ki, e1, hoi, hki, hsz, hft, ho1, hb1, -, hob, hr1⟩ := setp_step h hsi oj.pptr oj.epptr
  obtain ⟨w', e2, ⟨b', hg⟩, ⟨o', a1, a2, a3⟩, hr2⟩ := assign_step (ki := ki) hT hr1 ho1 hft kj.elems (hrj.fits.mono hrj.size) (y := y)
    ⟨hcy.pos, hcy.len, hcy.elems, hcy.taken⟩
  refine ⟨w', o', oj, ?_, by simpa using hr2, a1, by rw [hg.2.2.objs j hji, hob j hji]; exact hoj, a2, a3⟩
  revert e2
  cases hac : T.assignCap ki.cap kj.elems.length <;> intro e2 <;> simp only at e2 <;>
    simp [wcall, wexec, W.copyAssign, obj_apply hoj, block_apply hoj hkj, block_apply hoi hki, e1, hij, hac, e2]

open Classical in
/-- what a moved object is -/
theorem move_info (hK : K.Lawful) (hT : T.Lawful K) {s : Spec.Files C} {w : World C} (h : WRel K s w) {i j : Nat} {y : Spec.File C}
    (hsi : s i = none) (hsj : s j = some ⟨some y, false⟩) :
    ∃ w' oi oj, wcall K T (.move i j) w = some (.unit, w') ∧
      WRel K (Function.update (Function.update s i (some ⟨some y, !decide (Spec.TakesOver T)⟩)) j (some ⟨none, true⟩)) w' ∧
      w'.objs i = some oi ∧ w'.objs j = some oj ∧ oi.pptr = oj.pptr ∧ oi.epptr = oj.epptr ∧
      ((∀ c, T.steals c = false) → w.objs j = some oj) := by
  have hij : i ≠ j := by rintro rfl; rw [hsi] at hsj; simp at hsj
  obtain ⟨_, ⟨oj, kj, hoj, hkj, rfl⟩, hrj⟩ := h.slot j _ hsj
  obtain ⟨w1, e1, ho1, hk1, hob, -, hr1⟩ := begin_step h hsi ⟨[], K.cap0⟩ oj.pptr oj.epptr (sl := ⟨none, true⟩)
    (fun f => ⟨by simp [bufOf], hK.cap0_fits, by simp, by simp⟩)
  obtain ⟨w', e2, hr2, ⟨oi', a1, a2, a3⟩, ⟨oj', b1, b2, b3, b4⟩⟩ := moveData_step hK hT hr1 hij (y := y) (f := false) (sl := ⟨none, true⟩)
    (oj := oj) (by simp) (by rw [Function.update_of_ne (fun hh => hij hh.symm)]; exact hsj) ho1
    (by rw [hob j (fun hh => hij hh.symm)]; exact hoj) rfl rfl (!decide (Spec.TakesOver T)) (by simp)
  refine ⟨w', oi', oj', by simp [wcall, wexec, W.moveCtor, obj_apply hoj, e1, e2], by simpa using hr2, a1, b1, by rw [a2, b2], by rw [a3, b3],
    fun hn => by rw [b4 hn]; exact hoj⟩

/-- the put area of a file with memory -/
theorem pptr_at {b : Buf C} {y : Spec.File C} (h : Rel K y b) (ht : y.taken = false) (hd : y.data ≠ [] ∨ K.nullEmpty = false) :
    b.pptr = .at b.gen y.pos ∧ b.epptr = .at b.gen b.elems.length := by
  have hnn : ¬ (K.nullEmpty && b.cap == 0) = true := by
    intro hc
    simp only [Bool.and_eq_true, beq_iff_eq] at hc
    rcases hd with hd | hd
    · have := List.length_pos_iff.2 hd
      have h2 := h.len; have h3 := h.size
      omega
    · simp [hd] at hc
  have h1 := h.pptr ht
  have h2 := h.epptr ht
  simp only [ptr, hnn] at h1 h2
  exact ⟨by simpa using h1, by simpa using h2⟩

/-- `poff` and `get_container` compare a put area with another container -/
theorem poff_foreign {w : World C} (h : Inv w) {a g p : Nat} {o : Obj} (ho : w.objs a = some o) (hp : o.pptr = .at g p) (hg : g ≠ o.gen) :
    wcall K T (.on a .poff) w = none ∧ wcall K T (.on a .get) w = none := by
  obtain ⟨k, hk⟩ := h.has a o ho
  have hd : W.poff K a w = .ub := by
    simp only [W.poff, bind_apply, obj_apply ho, wdata_apply ho hk, hp, dataPtr, bufOf]
    by_cases hc : (K.nullEmpty && k.cap == 0) = true
    · simp only [hc, if_true, W.diff, undef_apply]
    · simp only [hc, Bool.false_eq_true, if_false, W.diff, bind_apply, M.load]
      cases w.blocks g with
      | none => rfl
      | some k' => simp [hg]
  constructor <;> simp only [wcall, wexec, W.exec, W.getContainer, bind_apply, hd]

/-- nothing can be written through a put area whose allocation is gone -/
theorem put_dangling {w : World C} {a g p e : Nat} {o : Obj} (ho : w.objs a = some o) (hp : o.pptr = .at g p) (he : o.epptr = .at g e)
    (hb : w.blocks g = none) (op : Op C) (hop : (∃ c, op = .put c) ∨ ∃ s, op = .write s) : wcall K T (.on a op) w = none := by
  rcases hop with ⟨c, rfl⟩ | ⟨s, rfl⟩ <;>
    simp only [wcall, wexec, W.exec, W.sputc, W.xsputn, bind_apply, obj_apply ho, hp, he, W.diff, M.load, hb]

/-- C64. However `mem_ostreambuf`s are created, copied, moved, assigned and destroyed in a program, each is a file of its own: what is
written to one does not change another, a copy has the data of the original, and a moved-to object the data of the moved-from one.
Missing: the cases of the defect theorems (a copy has to be cleared or positioned from the beginning before it is used, likewise an object
made by moving a container that does not hand over its memory; something moved from must be cleared), and those of `Spec.Safe`. -/
theorem C64_copies_partial (hK : K.Lawful) (hT : T.Lawful K) (ops : List (WOp C)) (rs : List (Reply C)) (s : Spec.Files C)
    (hr : Spec.wrun K T ops Spec.Files.none = some (rs, s)) (hs : Spec.WSafeRun K T ops Spec.Files.none) :
    ∃ w, wrun K T ops World.init = some (rs, w) := by
  obtain ⟨w, hw, _⟩ := wrun_rel hK hT WRel.init hs hr
  exact ⟨w, hw⟩

/-- seeking to the end and taking the container -/
theorem take_both (hK : K.Lawful) (hT : T.Lawful K) {s : Spec.Files C} {w : World C} (h : WRel K s w) {i : Nat} {y : Spec.File C} {f : Bool}
    (hsi : s i = some ⟨some y, f⟩) (ht : y.taken = false) (hl : y.data.length < 2147483648) :
    ∃ w', wrun K T [.on i (.seek y.data.length .beg), .on i .get] w = some ([.pos y.data.length, .container y.data], w') ∧
      WRel K (Function.update s i (some ⟨some ⟨[], 0, !K.nullEmpty⟩, false⟩)) w' := by
  have c1 : Spec.wcall K T (.on i (.seek y.data.length .beg)) s =
      some (.pos y.data.length, Function.update s i (some ⟨some { y with pos := y.data.length }, false⟩)) := by
    simp [Spec.wcall, hsi, Spec.call, Spec.File.target]
  obtain ⟨w1, e1, r1⟩ := wcall_step hK hT h (op := .on i (.seek y.data.length .beg)) (by
    simp only [Spec.WSafe, hsi]
    exact ⟨⟨by simp [ht], by simp only [Spec.File.target]; exact ⟨by omega, by simp⟩⟩, fun _ => Or.inr ⟨_, rfl⟩⟩) c1
  have c2 : Spec.wcall K T (.on i .get) (Function.update s i (some ⟨some { y with pos := y.data.length }, false⟩)) =
      some (.container y.data, Function.update s i (some ⟨some ⟨[], 0, !K.nullEmpty⟩, false⟩)) := by
    simp [Spec.wcall, Spec.call]
  obtain ⟨w2, e2, r2⟩ := wcall_step hK hT r1 (op := .on i .get) (by
    simp only [Spec.WSafe, Function.update_self]
    exact ⟨⟨by simp [ht], rfl⟩, by simp⟩) c2
  exact ⟨w2, by simp [wrun, e1, e2], r2⟩

/-- C64, defect. After any safe history, writing a character to a fresh copy of an object whose position is before the end of its data
changes the data of the original and not that of the copy. (Both containers are taken then.) -/
theorem C64_copy_writes_original_defect (hK : K.Lawful) (hT : T.Lawful K) (ops : List (WOp C)) (rs : List (Reply C)) (s : Spec.Files C)
    (hr : Spec.wrun K T ops Spec.Files.none = some (rs, s)) (hs : Spec.WSafeRun K T ops Spec.Files.none)
    (i j : Nat) (y : Spec.File C) (hsi : s i = none) (hsj : s j = some ⟨some y, false⟩) (ht : y.taken = false)
    (hpos : y.pos < y.data.length) (hl : y.data.length < 2147483648) (c : C) :
    ∃ w, wrun K T (ops ++ [.copy i j, .on i (.put c), .on j (.seek y.data.length .beg), .on j .get, .on i (.seek y.data.length .beg), .on i .get])
        World.init =
      some (rs ++ [.unit, .unit, .pos y.data.length, .container (y.data.set y.pos c), .pos y.data.length, .container y.data], w) := by
  have hij : i ≠ j := by rintro rfl; rw [hsi] at hsj; simp at hsj
  obtain ⟨w0, e0, r0⟩ := wrun_rel hK hT WRel.init hs hr
  obtain ⟨w1, oi, oj, e1, r1, ho, hoj, hp, he⟩ := copy_info hT r0 hsi hsj
  obtain ⟨w2, e2, r2⟩ := put_through_rel (T := T) r1 hij (f := some y) (y := y) (by simp) (by rw [Function.update_of_ne (fun hh => hij hh.symm)]; exact hsj)
    ht hpos ho hoj hp he c
  obtain ⟨w3, e3, r3⟩ := take_both hK hT r2 (i := j) (y := { y with data := y.data.set y.pos c }) (f := false) (by simp) ht (by simpa using hl)
  obtain ⟨w4, e4, r4⟩ := take_both hK hT r3 (i := i) (y := y) (f := true) (by simp [hij]) ht hl
  refine ⟨w4, ?_⟩
  rw [wrun_append, e0]
  simp only [List.length_set] at e3
  have e34 := wrun_append (K := K) (T := T) [.on j (.seek y.data.length .beg), .on j .get] [.on i (.seek y.data.length .beg), .on i .get] w2
  rw [e3] at e34
  simp only [Option.bind_some, e4, Option.map_some, List.cons_append, List.nil_append] at e34
  simp only [Option.bind_some]
  rw [show ∀ l, wrun K T (.copy i j :: .on i (.put c) :: l) w0 = (wrun K T l w2).map (fun q => (.unit :: .unit :: q.1, q.2)) from ?_, e34]
  · simp
  · intro l
    simp only [wrun, e1, e2, Option.bind_eq_bind, Option.bind_some]
    cases wrun K T l w2 <;> simp

/-- C64, defect. After any safe history, `poff` and `get_container` of a fresh copy of an object that has memory are undefined behaviour,
and once the original is destroyed so is writing to the copy. -/
theorem C64_copy_undefined_defect (hK : K.Lawful) (hT : T.Lawful K) (ops : List (WOp C)) (rs : List (Reply C)) (s : Spec.Files C)
    (hr : Spec.wrun K T ops Spec.Files.none = some (rs, s)) (hs : Spec.WSafeRun K T ops Spec.Files.none)
    (i j : Nat) (y : Spec.File C) (hsi : s i = none) (hsj : s j = some ⟨some y, false⟩) (ht : y.taken = false)
    (hd : y.data ≠ [] ∨ K.nullEmpty = false) :
    (∃ w, wrun K T (ops ++ [.copy i j]) World.init = some (rs ++ [.unit], w)) ∧
    wrun K T (ops ++ [.copy i j, .on i .poff]) World.init = none ∧
    wrun K T (ops ++ [.copy i j, .on i .get]) World.init = none ∧
    (∃ w, wrun K T (ops ++ [.copy i j, .destroy j]) World.init = some (rs ++ [.unit, .unit], w)) ∧
    ∀ op, ((∃ c, op = .put c) ∨ ∃ l, op = .write l) → wrun K T (ops ++ [.copy i j, .destroy j, .on i op]) World.init = none := by
  have hij : i ≠ j := by rintro rfl; rw [hsi] at hsj; simp at hsj
  obtain ⟨w0, e0, r0⟩ := wrun_rel hK hT WRel.init hs hr
  obtain ⟨w1, oi, oj, e1, r1, ho, hoj, hp, he⟩ := copy_info hT r0 hsi hsj
  obtain ⟨_, ⟨oj', kj, hoj', hkj, rfl⟩, hrj⟩ := r1.slot j ⟨some y, false⟩ (by rw [Function.update_of_ne (fun hh => hij hh.symm)]; exact hsj)
  obtain rfl : oj = oj' := by rw [hoj] at hoj'; exact Option.some.inj hoj'
  obtain ⟨hpp, hee⟩ := pptr_at (hrj.rel y rfl rfl) ht hd
  have hgen : oj.gen ≠ oi.gen := fun hh => hij (r1.inv.inj _ _ _ _ ho hoj hh.symm)
  obtain ⟨f1, f2⟩ := poff_foreign (K := K) (T := T) r1.inv ho (hp.trans hpp) hgen
  have e2 : wcall K T (.destroy j) w1 = some (.unit, { w1 with objs := Function.update w1.objs j none, blocks := Function.update w1.blocks oj.gen none }) := by
    simp [wcall, wexec, W.end_, obj_apply hoj]
  refine ⟨⟨w1, ?_⟩, ?_, ?_, ⟨{ w1 with objs := Function.update w1.objs j none, blocks := Function.update w1.blocks oj.gen none }, ?_⟩, fun op hop => ?_⟩
  · rw [wrun_append, e0]; simp [wrun, e1]
  · rw [wrun_append, e0]; simp [wrun, e1, f1]
  · rw [wrun_append, e0]; simp [wrun, e1, f2]
  · rw [wrun_append, e0]; simp only [Option.bind_some, wrun, e1, e2, Option.bind_eq_bind, Option.map_some]
  · have f3 := put_dangling (K := K) (T := T) (w := { w1 with objs := Function.update w1.objs j none, blocks := Function.update w1.blocks oj.gen none })
      (a := i) (o := oi) (by simp [hij, ho]) (hp.trans hpp) (he.trans hee) (by simp [bufOf]) op hop
    rw [wrun_append, e0]; simp [wrun, e1, e2, f3]

/-- C64, defect. The same after copy assignment: `poff` and `get_container` of the object that was assigned to are undefined behaviour, and
writing a character to it (when the position is before the end of the data) changes the data of the other object. -/
theorem C64_assign_defect (hK : K.Lawful) (hT : T.Lawful K) (ops : List (WOp C)) (rs : List (Reply C)) (s : Spec.Files C)
    (hr : Spec.wrun K T ops Spec.Files.none = some (rs, s)) (hs : Spec.WSafeRun K T ops Spec.Files.none)
    (i j : Nat) (hij : i ≠ j) (sl : Spec.Slot C) (y : Spec.File C) (hsi : s i = some sl) (hsj : s j = some ⟨some y, false⟩)
    (ht : y.taken = false) :
    (y.data ≠ [] ∨ K.nullEmpty = false →
      wrun K T (ops ++ [.assign i j, .on i .poff]) World.init = none ∧ wrun K T (ops ++ [.assign i j, .on i .get]) World.init = none) ∧
    (y.pos < y.data.length → y.data.length < 2147483648 → ∀ c,
      ∃ w, wrun K T (ops ++ [.assign i j, .on i (.put c), .on j (.seek y.data.length .beg), .on j .get]) World.init =
        some (rs ++ [.unit, .unit, .pos y.data.length, .container (y.data.set y.pos c)], w)) := by
  have hji : j ≠ i := fun hh => hij hh.symm
  obtain ⟨w0, e0, r0⟩ := wrun_rel hK hT WRel.init hs hr
  obtain ⟨w1, oi, oj, e1, r1, ho, hoj, hp, he⟩ := assign_info hT r0 hij hsi hsj
  refine ⟨fun hd => ?_, fun hpos hl c => ?_⟩
  · obtain ⟨_, ⟨oj', kj, hoj', hkj, rfl⟩, hrj⟩ := r1.slot j ⟨some y, false⟩ (by rw [Function.update_of_ne hji]; exact hsj)
    obtain rfl : oj = oj' := by rw [hoj] at hoj'; exact Option.some.inj hoj'
    obtain ⟨hpp, hee⟩ := pptr_at (hrj.rel y rfl rfl) ht hd
    have hgen : oj.gen ≠ oi.gen := fun hh => hij (r1.inv.inj _ _ _ _ ho hoj hh.symm)
    obtain ⟨f1, f2⟩ := poff_foreign (K := K) (T := T) r1.inv ho (hp.trans hpp) hgen
    constructor
    · rw [wrun_append, e0]; simp [wrun, e1, f1]
    · rw [wrun_append, e0]; simp [wrun, e1, f2]
  · obtain ⟨w2, e2, r2⟩ := put_through_rel (T := T) r1 hij (f := some y) (y := y) (by simp) (by rw [Function.update_of_ne hji]; exact hsj)
      ht hpos ho hoj hp he c
    obtain ⟨w3, e3, r3⟩ := take_both hK hT r2 (i := j) (y := { y with data := y.data.set y.pos c }) (f := false) (by simp) ht (by simpa using hl)
    simp only [List.length_set] at e3
    refine ⟨w3, ?_⟩
    rw [wrun_append, e0]
    simp only [Option.bind_some]
    rw [show ∀ l, wrun K T (.assign i j :: .on i (.put c) :: l) w0 = (wrun K T l w2).map (fun q => (.unit :: .unit :: q.1, q.2)) from ?_, e3]
    · simp
    · intro l
      simp only [wrun, e1, e2, Option.bind_eq_bind, Option.bind_some]
      cases wrun K T l w2 <;> simp

/-- C64, defect. After any safe history, if the container hands over its memory when it is moved: writing a character to an object that
was moved from changes the data of the object it was moved to (when the position was before the end of the data), and `poff` and
`get_container` of the object that was moved from are undefined behaviour (when it had memory). -/
theorem C64_moved_from_defect (hK : K.Lawful) (hT : T.Lawful K) (hto : Spec.TakesOver T) (ops : List (WOp C)) (rs : List (Reply C))
    (s : Spec.Files C) (hr : Spec.wrun K T ops Spec.Files.none = some (rs, s)) (hs : Spec.WSafeRun K T ops Spec.Files.none)
    (i j : Nat) (y : Spec.File C) (hsi : s i = none) (hsj : s j = some ⟨some y, false⟩) (ht : y.taken = false) :
    (y.pos < y.data.length → y.data.length < 2147483648 → ∀ c,
      ∃ w, wrun K T (ops ++ [.move i j, .on j (.put c), .on i (.seek y.data.length .beg), .on i .get]) World.init =
        some (rs ++ [.unit, .unit, .pos y.data.length, .container (y.data.set y.pos c)], w)) ∧
    (y.data ≠ [] ∨ K.nullEmpty = false →
      wrun K T (ops ++ [.move i j, .on j .poff]) World.init = none ∧
      wrun K T (ops ++ [.move i j, .on j .get]) World.init = none) := by
  have hij : i ≠ j := by rintro rfl; rw [hsi] at hsj; simp at hsj
  obtain ⟨w0, e0, r0⟩ := wrun_rel hK hT WRel.init hs hr
  obtain ⟨w1, oi, oj, e1, r1, ho, hoj, hp, he, -⟩ := move_info hK hT r0 hsi hsj
  simp only [hto, decide_true, Bool.not_true] at r1
  refine ⟨fun hpos hl c => ?_, fun hd => ?_⟩
  · obtain ⟨w2, e2, r2⟩ := put_through_rel (T := T) r1 (a := j) (x := i) (fun hh => hij hh.symm) (f := none) (y := y) (by simp)
      (by simp [hij]) ht hpos hoj ho hp.symm he.symm c
    obtain ⟨w3, e3, r3⟩ := take_both hK hT r2 (i := i) (y := { y with data := y.data.set y.pos c }) (f := false) (by simp) ht (by simpa using hl)
    simp only [List.length_set] at e3
    refine ⟨w3, ?_⟩
    rw [wrun_append, e0]
    simp only [Option.bind_some]
    rw [show ∀ l, wrun K T (.move i j :: .on j (.put c) :: l) w0 = (wrun K T l w2).map (fun q => (.unit :: .unit :: q.1, q.2)) from ?_, e3]
    · simp
    · intro l
      simp only [wrun, e1, e2, Option.bind_eq_bind, Option.bind_some]
      cases wrun K T l w2 <;> simp
  · obtain ⟨_, ⟨oi', ki, ho', hki, rfl⟩, hri⟩ := r1.slot i ⟨some y, false⟩ (by simp [hij])
    obtain rfl : oi = oi' := by rw [ho] at ho'; exact Option.some.inj ho'
    obtain ⟨hpp, hee⟩ := pptr_at (hri.rel y rfl rfl) ht hd
    have hgen : oi.gen ≠ oj.gen := fun hh => hij (r1.inv.inj _ _ _ _ ho hoj hh)
    obtain ⟨f1, f2⟩ := poff_foreign (K := K) (T := T) r1.inv hoj (hp.symm.trans hpp) hgen
    constructor
    · rw [wrun_append, e0]; simp [wrun, e1, f1]
    · rw [wrun_append, e0]; simp [wrun, e1, f2]

/-- C64, defect. After any safe history, if the container moves its elements one by one (static_vector): the put area of the object that
was moved to lies in the one that was moved from. `poff` and `get_container` are undefined behaviour, and once the object that was moved from
is destroyed, so is writing. -/
theorem C64_move_inline_defect (hK : K.Lawful) (hT : T.Lawful K) (hno : ∀ c, T.steals c = false) (ops : List (WOp C)) (rs : List (Reply C))
    (s : Spec.Files C) (hr : Spec.wrun K T ops Spec.Files.none = some (rs, s)) (hs : Spec.WSafeRun K T ops Spec.Files.none)
    (i j : Nat) (y : Spec.File C) (hsi : s i = none) (hsj : s j = some ⟨some y, false⟩) (ht : y.taken = false)
    (hd : y.data ≠ [] ∨ K.nullEmpty = false) :
    (∃ w, wrun K T (ops ++ [.move i j, .destroy j]) World.init = some (rs ++ [.unit, .unit], w)) ∧
    wrun K T (ops ++ [.move i j, .on i .poff]) World.init = none ∧
    wrun K T (ops ++ [.move i j, .on i .get]) World.init = none ∧
    ∀ op, ((∃ c, op = .put c) ∨ ∃ l, op = .write l) → wrun K T (ops ++ [.move i j, .destroy j, .on i op]) World.init = none := by
  have hij : i ≠ j := by rintro rfl; rw [hsi] at hsj; simp at hsj
  obtain ⟨w0, e0, r0⟩ := wrun_rel hK hT WRel.init hs hr
  obtain ⟨w1, oi, oj, e1, r1, ho, hoj, hp, he, hsame⟩ := move_info hK hT r0 hsi hsj
  obtain ⟨_, ⟨oj', kj, hoj', hkj, rfl⟩, hrj⟩ := r0.slot j ⟨some y, false⟩ hsj
  obtain rfl : oj = oj' := by have := hsame hno; rw [this] at hoj'; exact Option.some.inj hoj'
  obtain ⟨hpp, hee⟩ := pptr_at (hrj.rel y rfl rfl) ht hd
  have hgen : oj.gen ≠ oi.gen := fun hh => hij (r1.inv.inj _ _ _ _ ho hoj hh.symm)
  obtain ⟨f1, f2⟩ := poff_foreign (K := K) (T := T) r1.inv ho (hp.trans hpp) hgen
  have e2 : wcall K T (.destroy j) w1 = some (.unit, { w1 with objs := Function.update w1.objs j none, blocks := Function.update w1.blocks oj.gen none }) := by
    simp [wcall, wexec, W.end_, obj_apply hoj]
  refine ⟨⟨{ w1 with objs := Function.update w1.objs j none, blocks := Function.update w1.blocks oj.gen none }, ?_⟩, ?_, ?_, fun op hop => ?_⟩
  · rw [wrun_append, e0]; simp only [Option.bind_some, wrun, e1, e2, Option.bind_eq_bind, Option.map_some]
  · rw [wrun_append, e0]; simp [wrun, e1, f1]
  · rw [wrun_append, e0]; simp [wrun, e1, f2]
  · have f3 := put_dangling (K := K) (T := T) (w := { w1 with objs := Function.update w1.objs j none, blocks := Function.update w1.blocks oj.gen none })
      (a := i) (o := oi) (by simp [hij, ho]) (hp.trans hpp) (he.trans hee) (by simp [bufOf]) op hop
    rw [wrun_append, e0]; simp [wrun, e1, e2, f3]

/-! ### Concrete cases -/

/-- std::vector -/
def vecT : Transfer Nat := ⟨id, fun c n => if n ≤ c then none else some n, fun _ => true, fun _ => []⟩
/-- static_vector of 8 -/
def statT : Transfer Nat := ⟨fun n => max n 8, fun c n => if n ≤ c then none else some (max n 8), fun _ => false, id⟩

theorem vecT_lawful : vecT.Lawful vec := by
  refine ⟨by simp [vecT], by simp [vecT, vec, Container.Fits], ?_, by simp [vec, Container.Fits], ?_, by simp [vecT]⟩
  · intro c n m; simp only [vecT]; split <;> simp; omega
  · intro c n; simp only [vecT]; split <;> simp; assumption
theorem statT_lawful : statT.Lawful stat := by
  refine ⟨?_, ?_, ?_, ?_, ?_, by simp [statT]⟩
  · intro n; simp [statT]; omega
  · intro n; simp [statT, stat, Container.Fits]; omega
  · intro c n m; simp only [statT]; split <;> simp; omega
  · intro c n m; simp only [statT, stat, Container.Fits]; split <;> simp; omega
  · intro c n; simp only [statT]; split <;> simp; assumption

/-- a history meeting the hypotheses: a copy that is positioned, moved to a third object, and the original assigned to -/
def demoW : List (WOp Nat) :=
  [.new 0 0, .on 0 (.write [1, 2, 3]), .on 0 (.seek 1 .beg), .copy 1 0, .on 1 (.seek 3 .beg), .on 1 (.put 4), .on 0 (.put 9), .move 2 1,
   .on 1 .clear, .on 1 (.put 7), .on 2 .poff, .on 2 .get, .assign 1 0, .on 1 (.seek 3 .beg), .on 1 .get, .destroy 0, .moveAssign 1 2, .destroy 2]

theorem vecTO : Spec.TakesOver vecT := fun _ => rfl

example : (Spec.wrun vec vecT demoW Spec.Files.none).map (·.1) = some [.unit, .unit, .pos 1, .unit, .pos 3, .unit, .unit, .unit, .unit, .unit, .pos 4,
    .container [1, 2, 3, 4], .unit, .pos 3, .container [1, 9, 3], .unit, .unit, .unit] ∧ Spec.WSafeRun vec vecT demoW Spec.Files.none := by
  have hf : ∀ n, vec.Fits n := by intro n; simp [Container.Fits, vec]
  have hl : Spec.chunkLimit vec = 2147483648 := rfl
  have hn : vec.nullEmpty = true := rfl
  refine ⟨?_, ?_⟩
  · simp [Spec.wrun, demoW, Spec.wcall, Spec.Files.none, hf, Spec.call, Spec.init, Spec.File.write, Spec.File.target, hn, vecTO]
  · simp [Spec.WSafeRun, demoW, Spec.wcall, Spec.Files.none, hf, Spec.call, Spec.init, Spec.File.write, Spec.File.target, hn, vecTO,
      Spec.WSafe, Spec.Safe, hl]

/-- the code does the same -/
example : (wrun vec vecT demoW World.init).map (·.1) = some [.unit, .unit, .pos 1, .unit, .pos 3, .unit, .unit, .unit, .unit, .unit, .pos 4,
    .container [1, 2, 3, 4], .unit, .pos 3, .container [1, 9, 3], .unit, .unit, .unit] := rfl

/-- a state meeting the hypotheses of the defect theorems -/
example : ∃ s y, Spec.wrun vec vecT [.new 0 0, .on 0 (.write [1, 2, 3]), .on 0 (.seek 1 .beg)] Spec.Files.none = some ([.unit, .unit, .pos 1], s) ∧
    Spec.WSafeRun vec vecT [.new 0 0, .on 0 (.write [1, 2, 3]), .on 0 (.seek 1 .beg)] Spec.Files.none ∧
    s 1 = none ∧ s 0 = some ⟨some y, false⟩ ∧ y.taken = false ∧ y.pos < y.data.length ∧ y.data.length < 2147483648 := by
  have hf : ∀ n, vec.Fits n := by intro n; simp [Container.Fits, vec]
  have hl : Spec.chunkLimit vec = 2147483648 := rfl
  refine ⟨Function.update Spec.Files.none 0 (some ⟨some ⟨[1, 2, 3], 1, false⟩, false⟩), ⟨[1, 2, 3], 1, false⟩, ?_, ?_, by rfl, by rfl, rfl, by decide, by decide⟩
  · simp [Spec.wrun, Spec.wcall, Spec.Files.none, hf, Spec.call, Spec.init, Spec.File.write, Spec.File.target]
  · simp [Spec.WSafeRun, Spec.wcall, Spec.Files.none, hf, Spec.call, Spec.init, Spec.File.write, Spec.File.target, Spec.WSafe, Spec.Safe, hl]

/-- a state meeting the hypotheses of `C64_move_inline_defect` -/
example : (∀ c, statT.steals c = false) ∧ stat.nullEmpty = false ∧
    Spec.wrun stat statT [.new 0 0] Spec.Files.none = some ([.unit], Function.update Spec.Files.none 0 (some ⟨some ⟨[], 0, false⟩, false⟩)) ∧
    Spec.WSafeRun stat statT [.new 0 0] Spec.Files.none := by
  have hf : stat.Fits 0 := by intro m hm; omega
  refine ⟨fun _ => rfl, rfl, ?_, ?_⟩
  · simp [Spec.wrun, Spec.wcall, Spec.Files.none, hf, Spec.init]
  · simp [Spec.WSafeRun, Spec.WSafe]

/-- the defect, run -/
example : (wrun vec vecT [.new 0 0, .on 0 (.write [1, 2, 3]), .on 0 (.seek 1 .beg), .copy 1 0, .on 1 (.put 9), .on 0 (.seek 3 .beg), .on 0 .get]
    World.init).map (·.1) = some [.unit, .unit, .pos 1, .unit, .unit, .pos 3, .container [1, 9, 3]] := rfl

end Itlib.MemOut
