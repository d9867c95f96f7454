import Verif.MemOut.CopySpec
import Verif.MemOut.Lemmas

/-! # Lemmas for several `mem_ostreambuf`s -/
namespace Itlib.MemOut
open Itlib M
variable {C : Type} {K : Container C} {T : Transfer C}

/-- object and allocation as the object of `Model.lean` -/
def bufOf (o : Obj) (b : Block C) (f : Nat) : Buf C := ⟨b.elems, b.cap, o.gen, o.pptr, o.epptr, f⟩

/-- `b` is object `i` seen alone -/
def View (w : World C) (i : Nat) (b : Buf C) : Prop :=
  ∃ o k, w.objs i = some o ∧ w.blocks o.gen = some k ∧ b = bufOf o k w.fresh

/-- Every object has an allocation of its own. -/
structure Inv (w : World C) : Prop where
  lt : ∀ i o, w.objs i = some o → o.gen < w.fresh
  has : ∀ i o, w.objs i = some o → ∃ b, w.blocks o.gen = some b
  inj : ∀ i j o o', w.objs i = some o → w.objs j = some o' → o.gen = o'.gen → i = j

/-- The other objects are as before. -/
structure Frame (i : Nat) (w w' : World C) : Prop where
  objs : ∀ j, j ≠ i → w'.objs j = w.objs j
  blocks : ∀ j o, j ≠ i → w.objs j = some o → w'.blocks o.gen = w.blocks o.gen
  fresh : w.fresh ≤ w'.fresh

theorem Frame.refl (i : Nat) (w : World C) : Frame i w w := ⟨fun _ _ => rfl, fun _ _ _ _ => rfl, Nat.le_refl _⟩

theorem Frame.trans {i : Nat} {w w' w'' : World C} (h : Frame i w w') (h' : Frame i w' w'') : Frame i w w'' := by
  refine ⟨fun j hj => by rw [h'.objs j hj, h.objs j hj], fun j o hj ho => ?_, Nat.le_trans h.fresh h'.fresh⟩
  rw [h'.blocks j o hj (by rw [h.objs j hj]; exact ho), h.blocks j o hj ho]

/-- after a step of `i` from `w` -/
def Good (i : Nat) (w w' : World C) (b' : Buf C) : Prop := View w' i b' ∧ Inv w' ∧ Frame i w w'

/-- the results agree, unless seen alone it is undefined -/
def RR (i : Nat) (w : World C) {α : Type} : Res (World C) α → Res (Buf C) α → Prop
  | _, .ub => True
  | .ok a w', .ok a' b' => a = a' ∧ Good i w w' b'
  | .throw e w', .throw e' b' => e = e' ∧ Good i w w' b'
  | _, _ => False

def Sim (i : Nat) {α : Type} (F : W.Mem C α) (f : Mem C α) : Prop :=
  ∀ w b, Inv w → View w i b → RR i w (F w) (f b)

theorem Sim.pure {i : Nat} {α : Type} (a : α) : Sim (C := C) i (pure a) (pure a) := by
  intro w b h hv
  exact ⟨rfl, hv, h, Frame.refl _ _⟩

theorem Sim.undef {i : Nat} {α : Type} (F : W.Mem C α) : Sim (C := C) i F .undef := by
  intro w b h hv
  simp only [undef_apply]
  cases F w <;> trivial

theorem Sim.raise {i : Nat} {α : Type} (e : Exc) : Sim (C := C) (α := α) i (.raise e) (.raise e) := by
  intro w b h hv
  exact ⟨rfl, hv, h, Frame.refl _ _⟩

theorem RR.frame {i : Nat} {w w' : World C} {α : Type} {x : Res (World C) α} {y : Res (Buf C) α} (hf : Frame i w w')
    (h : RR i w' x y) : RR i w x y := by
  cases y with
  | ub => cases x <;> trivial
  | ok a b =>
    cases x with
    | ok a' w'' => exact ⟨h.1, h.2.1, h.2.2.1, hf.trans h.2.2.2⟩
    | throw e w'' => exact h.elim
    | ub => exact h.elim
  | throw e b =>
    cases x with
    | throw a' w'' => exact ⟨h.1, h.2.1, h.2.2.1, hf.trans h.2.2.2⟩
    | ok e w'' => exact h.elim
    | ub => exact h.elim

theorem Sim.bind {i : Nat} {α β : Type} {F : W.Mem C α} {f : Mem C α} {G : α → W.Mem C β} {g : α → Mem C β}
    (h : Sim i F f) (h' : ∀ a, Sim i (G a) (g a)) : Sim i (F >>= G) (f >>= g) := by
  intro w b hi hv
  have := h w b hi hv
  simp only [bind_apply]
  revert this
  cases hf : f b with
  | ub => intro _; cases F w with
    | ok a w' => simp only []; cases G a w' <;> trivial
    | throw => trivial
    | ub => trivial
  | ok a b' =>
    cases hF : F w with
    | ok a' w' =>
      rintro ⟨rfl, hv', hi', hfr⟩
      exact RR.frame hfr (h' a' w' b' hi' hv')
    | throw e w'' => exact fun h => h.elim
    | ub => exact fun h => h.elim
  | throw e b' =>
    cases hF : F w with
    | throw a' w' => exact fun h => h
    | ok e w'' => exact fun h => h.elim
    | ub => exact fun h => h.elim

theorem Sim.ite {i : Nat} {α : Type} {p : Prop} [Decidable p] {F G : W.Mem C α} {f g : Mem C α}
    (h : p → Sim i F f) (h' : ¬ p → Sim i G g) : Sim i (if p then F else G) (if p then f else g) := by
  split
  · exact h ‹_›
  · exact h' ‹_›

theorem Sim.obj {i : Nat} {α : Type} {F : Obj → W.Mem C α} {f : Buf C → Mem C α}
    (h : ∀ o b, o.pptr = b.pptr → o.epptr = b.epptr → Sim i (F o) (f b)) : Sim i (W.obj i >>= F) (M.get >>= f) := by
  intro w b hi hv
  obtain ⟨o, k, ho, hk, rfl⟩ := hv
  simp only [bind_apply, W.obj, M.load, ho, get_apply]
  exact h o _ rfl rfl w _ hi ⟨o, k, ho, hk, rfl⟩

theorem block_apply {w : World C} {i : Nat} {o : Obj} {k : Block C} (ho : w.objs i = some o) (hk : w.blocks o.gen = some k) :
    W.block i w = .ok k w := by
  simp [W.block, W.obj, M.load, ho, hk]

theorem obj_apply {w : World C} {i : Nat} {o : Obj} (ho : w.objs i = some o) : W.obj i w = .ok o w := by
  simp [W.obj, M.load, ho]

theorem Sim.block {i : Nat} {α : Type} {F : Block C → W.Mem C α} {f : Buf C → Mem C α}
    (h : ∀ k b, k.elems = b.elems → k.cap = b.cap → Sim i (F k) (f b)) : Sim i (W.block i >>= F) (M.get >>= f) := by
  intro w b hi hv
  obtain ⟨o, k, ho, hk, rfl⟩ := hv
  simp only [bind_apply, block_apply ho hk, get_apply]
  exact h k _ rfl rfl w _ hi ⟨o, k, ho, hk, rfl⟩

theorem wdata_apply {w : World C} {i : Nat} {o : Obj} {k : Block C} (ho : w.objs i = some o) (hk : w.blocks o.gen = some k) :
    W.data K i w = .ok (dataPtr K (bufOf o k w.fresh)) w := by
  simp only [W.data, bind_apply, obj_apply ho, block_apply ho hk, dataPtr, bufOf]
  by_cases h : (K.nullEmpty && k.cap == 0) = true
  · simp only [h, if_true, pure_apply]
  · simp only [h, Bool.false_eq_true, if_false, pure_apply]

theorem Sim.data {i : Nat} : Sim i (W.data K i) (data K) := by
  intro w b hi hv
  obtain ⟨o, k, ho, hk, rfl⟩ := hv
  rw [wdata_apply ho hk, data_apply]
  exact ⟨rfl, ⟨o, k, ho, hk, rfl⟩, hi, Frame.refl _ _⟩

theorem Sim.shift {i : Nat} (p : Ptr) (n : Int) : Sim (C := C) i (W.shift p n) (shift p n) := by
  intro w b hi hv
  cases p with
  | null =>
    simp only [W.shift, MemOut.shift, bind_apply, get_apply]
    split
    · exact ⟨rfl, hv, hi, Frame.refl _ _⟩
    · trivial
  | «at» g o =>
    have hv' := hv
    obtain ⟨ob, k, ho, hk, rfl⟩ := hv
    simp only [MemOut.shift, bind_apply, get_apply]
    by_cases h : g = (bufOf ob k w.fresh).gen ∧ 0 ≤ (o : Int) + n ∧ (o : Int) + n ≤ (bufOf ob k w.fresh).cap
    · rw [if_pos h]
      obtain ⟨rfl, h1⟩ := h
      simp only [bufOf] at h1
      simp only [bufOf, W.shift, bind_apply, M.load, hk, h1, and_self, if_true]
      exact ⟨rfl, hv', hi, Frame.refl _ _⟩
    · rw [if_neg h, undef_apply]
      cases W.shift (C := C) (.at g o) n w <;> trivial

theorem Sim.diff {i : Nat} (p q : Ptr) : Sim (C := C) i (W.diff p q) (diff p q) := by
  intro w b hi hv
  cases p with
  | null =>
    cases q with
    | null => exact ⟨rfl, hv, hi, Frame.refl _ _⟩
    | «at» g' o' => simp only [MemOut.diff, bind_apply, get_apply, undef_apply]; cases W.diff (C := C) .null (.at g' o') w <;> trivial
  | «at» g o =>
    cases q with
    | null => simp only [MemOut.diff, bind_apply, get_apply, undef_apply]; cases W.diff (C := C) (.at g o) .null w <;> trivial
    | «at» g' o' =>
      have hv' := hv
      obtain ⟨ob, k, ho, hk, rfl⟩ := hv
      simp only [MemOut.diff, bind_apply, get_apply]
      by_cases h : g = (bufOf ob k w.fresh).gen ∧ g' = (bufOf ob k w.fresh).gen
      · obtain ⟨rfl, rfl⟩ := h
        simp only [bufOf, W.diff, bind_apply, M.load, hk, and_self, if_true]
        exact ⟨rfl, hv', hi, Frame.refl _ _⟩
      · rw [if_neg h, undef_apply]
        cases W.diff (C := C) (.at g o) (.at g' o') w <;> trivial

/-- the object changes, its allocation keeps its number -/
theorem Good.same {i : Nat} {w : World C} (hi : Inv w) {o : Obj} (ho : w.objs i = some o)
    (p e : Ptr) (k' : Block C) :
    Good i w { w with objs := Function.update w.objs i (some { o with pptr := p, epptr := e }), blocks := Function.update w.blocks o.gen (some k') }
      (bufOf { o with pptr := p, epptr := e } k' w.fresh) := by
  refine ⟨⟨{ o with pptr := p, epptr := e }, k', by simp, by simp, rfl⟩, ⟨?_, ?_, ?_⟩, ⟨?_, ?_, Nat.le_refl _⟩⟩
  · intro j o' h
    simp only [Function.update_apply] at h
    split at h
    · cases h; exact hi.lt i o ho
    · exact hi.lt j o' h
  · intro j o' h
    simp only [Function.update_apply] at h ⊢
    split at h
    · cases h; exact ⟨k', by simp⟩
    · split
      · exact ⟨k', rfl⟩
      · exact hi.has j o' h
  · intro j j' o1 o2 h1 h2 hg
    simp only [Function.update_apply] at h1 h2
    split at h1 <;> split at h2
    · simp_all
    · cases h1; rename_i hj hj'; subst hj; exact hi.inj _ _ _ _ ho h2 hg
    · cases h2; rename_i hj hj'; subst hj'; exact hi.inj _ _ _ _ h1 ho hg
    · exact hi.inj _ _ _ _ h1 h2 hg
  · intro j hj; simp [hj]
  · intro j o' hj h
    have : o'.gen ≠ o.gen := fun hg => hj (hi.inj _ _ _ _ h ho hg)
    simp [this]

/-- the object gets a new allocation -/
theorem Good.new {i : Nat} {w : World C} (hi : Inv w) {o : Obj} (ho : w.objs i = some o) (p e : Ptr) (k' : Block C) :
    Good i w { objs := Function.update w.objs i (some ⟨w.fresh, p, e⟩),
               blocks := Function.update (Function.update w.blocks o.gen none) w.fresh (some k'), fresh := w.fresh + 1 }
      (bufOf ⟨w.fresh, p, e⟩ k' (w.fresh + 1)) := by
  refine ⟨⟨⟨w.fresh, p, e⟩, k', by simp, by simp, rfl⟩, ⟨?_, ?_, ?_⟩, ⟨?_, ?_, Nat.le_succ _⟩⟩
  · intro j o' h
    simp only [Function.update_apply] at h
    split at h
    · cases h; exact Nat.lt_succ_self _
    · exact Nat.lt_succ_of_lt (hi.lt j o' h)
  · intro j o' h
    simp only [Function.update_apply] at h ⊢
    split at h
    · cases h; exact ⟨k', by simp⟩
    · rename_i hj
      have h1 := hi.lt j o' h
      have h2 : o'.gen ≠ o.gen := fun hg => hj (hi.inj _ _ _ _ h ho hg)
      rw [if_neg (by omega), if_neg h2]
      exact hi.has j o' h
  · intro j j' o1 o2 h1 h2 hg
    simp only [Function.update_apply] at h1 h2
    split at h1 <;> split at h2
    · simp_all
    · cases h1; have := hi.lt _ _ h2; simp only at hg; omega
    · cases h2; have := hi.lt _ _ h1; simp only at hg; omega
    · exact hi.inj _ _ _ _ h1 h2 hg
  · intro j hj; simp [hj]
  · intro j o' hj h
    have h1 := hi.lt j o' h
    have h2 : o'.gen ≠ o.gen := fun hg => hj (hi.inj _ _ _ _ h ho hg)
    have h3 : o'.gen ≠ w.fresh := by omega
    simp [h2, h3]

theorem Sim.setp {i : Nat} (p e : Ptr) : Sim (C := C) i (W.setp i p e) (setp p e) := by
  intro w b hi hv
  obtain ⟨o, k, ho, hk, rfl⟩ := hv
  simp only [W.setp, MemOut.setp, bind_apply, obj_apply ho, modify_apply]
  refine ⟨rfl, ?_⟩
  have := Good.same hi ho p e k
  have he : Function.update w.blocks o.gen (some k) = w.blocks := by rw [← hk]; exact Function.update_eq_self _ _
  rw [he] at this
  exact this

theorem Sim.pbump {i : Nat} (n : Int) : Sim (C := C) i (W.pbump i n) (pbump n) := by
  intro w b hi hv
  have hv' := hv
  obtain ⟨o, k, ho, hk, rfl⟩ := hv
  simp only [W.pbump, MemOut.pbump, bind_apply, obj_apply ho, get_apply]
  have hs := Sim.shift (i := i) o.pptr n w _ hi hv'
  revert hs
  simp only [show (bufOf o k w.fresh).pptr = o.pptr from rfl]
  cases hf : MemOut.shift o.pptr n (bufOf o k w.fresh) with
  | ub =>
    intro _
    cases hF : W.shift o.pptr n w with
    | ok a w' => simp only []; cases W.setp i a o.epptr w' <;> trivial
    | throw => trivial
    | ub => trivial
  | throw e b' =>
    cases hF : W.shift o.pptr n w with
    | ok a w' => exact fun h => h.elim
    | throw => exact fun h => h
    | ub => exact fun h => h.elim
  | ok a b' =>
    cases hF : W.shift o.pptr n w with
    | throw a w' => exact fun h => h.elim
    | ub => exact fun h => h.elim
    | ok a' w' =>
      rintro ⟨rfl, hg⟩
      have hb : b' = bufOf o k w.fresh := by
        cases hp : o.pptr with
        | null => rw [hp] at hf; simp only [MemOut.shift, bind_apply, get_apply] at hf; split at hf <;> simp at hf; exact hf.2.symm
        | «at» g q => rw [hp] at hf; simp only [MemOut.shift, bind_apply, get_apply] at hf; split at hf <;> simp at hf; exact hf.2.symm
      subst hb
      have := Sim.setp (i := i) a' o.epptr w' _ hg.2.1 hg.1
      exact RR.frame hg.2.2 this

theorem Sim.copyTo {i : Nat} (p : Ptr) (s : List C) : Sim i (W.copyTo p s) (copyTo p s) := by
  intro w b hi hv
  cases p with
  | null =>
    simp only [W.copyTo, MemOut.copyTo, bind_apply, get_apply]
    split
    · exact ⟨rfl, hv, hi, Frame.refl _ _⟩
    · trivial
  | «at» g o =>
    obtain ⟨ob, k, ho, hk, rfl⟩ := hv
    simp only [MemOut.copyTo, bind_apply, get_apply]
    by_cases h : g = (bufOf ob k w.fresh).gen ∧ o + s.length ≤ (bufOf ob k w.fresh).elems.length
    · rw [if_pos h, set_apply]
      obtain ⟨rfl, h1⟩ := h
      simp only [bufOf] at h1
      simp only [bufOf, W.copyTo, bind_apply, M.load, hk, h1, if_true, modify_apply]
      refine ⟨rfl, ?_⟩
      have := Good.same hi ho ob.pptr ob.epptr { k with elems := k.elems.take o ++ s ++ k.elems.drop (o + s.length) }
      have he : Function.update w.objs i (some ob) = w.objs := by rw [← ho]; exact Function.update_eq_self _ _
      rw [show ({ ob with pptr := ob.pptr, epptr := ob.epptr } : Obj) = ob from rfl, he] at this
      exact this
    · rw [if_neg h, undef_apply]
      cases W.copyTo (.at g o) s w <;> trivial

theorem Sim.resize {i : Nat} (n : Nat) : Sim i (W.resize K i n) (resize K n) := by
  intro w b hi hv
  have hv' := hv
  obtain ⟨o, k, ho, hk, rfl⟩ := hv
  simp only [W.resize, MemOut.resize, bind_apply, block_apply ho hk, get_apply]
  have hc : (bufOf o k w.fresh).cap = k.cap := rfl
  rw [hc]
  by_cases h : n ≤ k.cap
  · simp only [h, if_true, W.refill, bind_apply, obj_apply ho, modify_apply, set_apply]
    refine ⟨rfl, ?_⟩
    have := Good.same hi ho o.pptr o.epptr { k with elems := k.elems.take n ++ List.replicate (n - k.elems.length) K.fill }
    have he : Function.update w.objs i (some o) = w.objs := by rw [← ho]; exact Function.update_eq_self _ _
    rw [show ({ o with pptr := o.pptr, epptr := o.epptr } : Obj) = o from rfl, he] at this
    exact this
  · simp only [h, if_false]
    by_cases hf : K.Fits n
    · simp only [hf, if_true, W.reallocate, bind_apply, obj_apply ho, modify_apply, set_apply]
      refine ⟨rfl, ?_⟩
      exact Good.new hi ho o.pptr o.epptr _
    · simp only [hf, if_false, raise_apply]
      exact ⟨rfl, hv', hi, Frame.refl _ _⟩

theorem Sim.poff {i : Nat} : Sim i (W.poff K i) (poff K) := by
  unfold W.poff MemOut.poff
  refine Sim.obj fun o b hp he => ?_
  refine Sim.bind Sim.data fun d => ?_
  rw [hp]; exact Sim.diff _ _

theorem Sim.capResizeBy {i : Nat} (n : Nat) : Sim i (W.capResizeBy K i n) (capResizeBy K n) := by
  unfold W.capResizeBy MemOut.capResizeBy
  refine Sim.bind Sim.poff fun off => ?_
  refine Sim.block fun k b he hc => ?_
  rw [he]
  refine Sim.bind (Sim.resize _) fun _ => ?_
  refine Sim.block fun k' b' he' hc' => ?_
  rw [hc']
  refine Sim.bind (Sim.resize _) fun _ => ?_
  refine Sim.bind Sim.data fun d => ?_
  refine Sim.bind (Sim.shift _ _) fun p => ?_
  refine Sim.bind (Sim.shift _ _) fun e => ?_
  exact Sim.setp _ _

theorem Sim.overflow {i : Nat} (c : C) : Sim i (W.overflow K i c) (overflow K c) := by
  unfold W.overflow MemOut.overflow
  refine Sim.bind (Sim.capResizeBy _) fun _ => ?_
  refine Sim.obj fun o b hp he => ?_
  rw [hp]
  exact Sim.bind (Sim.copyTo _ _) fun _ => Sim.pbump _

theorem Sim.sputc {i : Nat} (c : C) : Sim i (W.sputc K i c) (sputc K c) := by
  unfold W.sputc MemOut.sputc
  refine Sim.obj fun o b hp he => ?_
  rw [hp, he]
  refine Sim.bind (Sim.diff _ _) fun rem => ?_
  refine Sim.ite (fun _ => ?_) (fun _ => Sim.overflow c)
  exact Sim.bind (Sim.copyTo _ _) fun _ => Sim.pbump _

theorem Sim.xsputn {i : Nat} (s : List C) : Sim i (W.xsputn K i s) (xsputn K s) := by
  unfold W.xsputn MemOut.xsputn
  refine Sim.obj fun o b hp he => ?_
  rw [hp, he]
  refine Sim.bind (Sim.diff _ _) fun rem => ?_
  have tail : Sim i (do let o ← W.obj i; W.copyTo o.pptr s; W.pbump i (bumpArg K s.length))
      (do let b ← M.get; MemOut.copyTo b.pptr s; MemOut.pbump (bumpArg K s.length)) := by
    refine Sim.obj fun o b hp he => ?_
    rw [hp]
    exact Sim.bind (Sim.copyTo _ _) fun _ => Sim.pbump _
  refine Sim.ite (fun _ => ?_) (fun _ => ?_)
  · exact Sim.bind (Sim.capResizeBy _) fun _ => tail
  · exact tail

theorem Sim.seekpos {i : Nat} (t : Int) : Sim i (W.seekpos K i t) (seekpos K t) := by
  unfold W.seekpos MemOut.seekpos
  refine Sim.block fun k b he hc => ?_
  rw [he]
  refine Sim.bind Sim.data fun d => ?_
  refine Sim.bind (Sim.shift _ _) fun p => ?_
  refine Sim.bind (Sim.shift _ _) fun e => ?_
  exact Sim.bind (Sim.setp _ _) fun _ => Sim.pure _

theorem Sim.seekoff {i : Nat} (off : Int) (way : Way) : Sim i (W.seekoff K i off way) (seekoff K off way) := by
  cases way with
  | beg => exact Sim.seekpos _
  | cur => exact Sim.bind Sim.poff fun _ => Sim.seekpos _
  | «end» =>
    refine Sim.block fun k b he hc => ?_
    rw [he]; exact Sim.seekpos _

theorem Sim.getContainer {i : Nat} : Sim i (W.getContainer K i) (getContainer K) := by
  unfold W.getContainer MemOut.getContainer
  refine Sim.bind Sim.poff fun size => ?_
  intro w b hi hv
  obtain ⟨o, k, ho, hk, rfl⟩ := hv
  simp only [bind_apply, block_apply ho hk, get_apply, W.reallocate, modify_apply, set_apply, W.setp, MemOut.setp,
    W.obj, M.load, ho, Function.update_self, pure_apply]
  refine ⟨rfl, ?_⟩
  have := Good.new hi ho .null .null (⟨[], K.cap0⟩ : Block C)
  simpa [bufOf, Good] using this

theorem Sim.clear {i : Nat} : Sim i (W.clear K i) (clear K) := by
  unfold W.clear MemOut.clear
  have h1 : Sim (C := C) i (do let b ← W.block i; W.refill i { b with elems := [] }) (M.modify fun b => { b with elems := [] }) := by
    intro w b hi hv
    obtain ⟨o, k, ho, hk, rfl⟩ := hv
    simp only [bind_apply, block_apply ho hk, W.refill, obj_apply ho, modify_apply]
    refine ⟨rfl, ?_⟩
    have := Good.same hi ho o.pptr o.epptr { k with elems := [] }
    have he : Function.update w.objs i (some o) = w.objs := by rw [← ho]; exact Function.update_eq_self _ _
    rw [show ({ o with pptr := o.pptr, epptr := o.epptr } : Obj) = o from rfl, he] at this
    exact this
  have h2 := Sim.bind h1 (G := fun _ => do let d ← W.data K i; W.setp i d d) (g := fun _ => do let d ← MemOut.data K; MemOut.setp d d)
    (fun _ => Sim.bind Sim.data fun d => Sim.setp _ _)
  intro w b hi hv
  have := h2 w b hi hv
  simp only [bind_apply] at this ⊢
  revert this
  cases W.block i w with
  | ok k w' => exact fun h => h
  | throw => exact fun h => h
  | ub => exact fun h => h

/-- One call of one object behaves as if it were alone, if that is defined. -/
theorem Sim.exec {i : Nat} (op : Op C) : Sim i (W.exec K i op) (exec K op) := by
  cases op with
  | put c => exact Sim.bind (Sim.sputc c) fun _ => Sim.pure _
  | write s => exact Sim.bind (Sim.xsputn s) fun _ => Sim.pure _
  | seek off way => exact Sim.bind (Sim.seekoff off way) fun _ => Sim.pure _
  | poff => exact Sim.bind Sim.poff fun _ => Sim.pure _
  | get => exact Sim.bind Sim.getContainer fun _ => Sim.pure _
  | clear => exact Sim.bind Sim.clear fun _ => Sim.pure _

/-- the same, as calls -/
theorem wcall_on {i : Nat} {op : Op C} {w : World C} {b b' : Buf C} {r : Reply C} (hi : Inv w) (hv : View w i b)
    (h : call K op b = some (r, b')) : ∃ w', wcall K T (.on i op) w = some (r, w') ∧ Good i w w' b' := by
  have hs := Sim.exec (K := K) (i := i) op w b hi hv
  simp only [call] at h
  simp only [wcall, wexec]
  revert hs
  cases hf : MemOut.exec K op b with
  | ub => simp [hf] at h
  | ok a b1 =>
    simp only [hf, Option.some.injEq, Prod.mk.injEq] at h
    obtain ⟨rfl, rfl⟩ := h
    cases hF : W.exec K i op w with
    | ok a' w' => rintro ⟨rfl, hg⟩; exact ⟨w', rfl, hg⟩
    | throw => exact fun h => h.elim
    | ub => exact fun h => h.elim
  | throw e b1 =>
    simp only [hf, Option.some.injEq, Prod.mk.injEq] at h
    obtain ⟨rfl, rfl⟩ := h
    cases hF : W.exec K i op w with
    | throw a' w' => rintro ⟨rfl, hg⟩; exact ⟨w', rfl, hg⟩
    | ok => exact fun h => h.elim
    | ub => exact fun h => h.elim

end Itlib.MemOut
