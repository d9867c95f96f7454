import Verif.MemOut.Spec

/-! # Step lemmas for `mem_ostreambuf` -/
namespace Itlib.MemOut
open Itlib M
variable {C : Type} {K : Container C}

/-- `data()` as a value -/
def dataPtr (K : Container C) (b : Buf C) : Ptr := if K.nullEmpty && b.cap == 0 then .null else .at b.gen 0

/-- a pointer `n` behind `data()` -/
def ptr (K : Container C) (b : Buf C) (n : Nat) : Ptr := if K.nullEmpty && b.cap == 0 then .null else .at b.gen n

theorem data_apply (b : Buf C) : data K b = .ok (dataPtr K b) b := by
  simp only [data, bind_apply, get_apply, dataPtr]; split <;> rfl

theorem shift_data (b : Buf C) (n : Nat) (h : n ≤ b.cap) : shift (dataPtr K b) n b = .ok (ptr K b n) b := by
  simp only [dataPtr, ptr, shift, bind_apply, get_apply]
  split
  · rename_i hc
    simp only [Bool.and_eq_true, beq_iff_eq] at hc
    have : n = 0 := by omega
    simp [this]
  · have h1 : (0 : Int) ≤ n := by omega
    have h2 : (n : Int) ≤ b.cap := by omega
    simp [h2]

theorem shift_ptr (b : Buf C) (n k : Nat) (h : n + k ≤ b.cap) : shift (ptr K b n) k b = .ok (ptr K b (n + k)) b := by
  simp only [ptr, shift, bind_apply, get_apply]
  split
  · rename_i hc
    simp only [Bool.and_eq_true, beq_iff_eq] at hc
    have : k = 0 := by omega
    simp [this]
  · have h1 : (0 : Int) ≤ (n : Int) + k := by omega
    have h2 : (n : Int) + k ≤ b.cap := by omega
    have h3 : ((n : Int) + k).toNat = n + k := by omega
    simp [h1, h2, h3]

theorem diff_ptr (b : Buf C) (n m : Nat) (h : n ≤ b.cap) (h' : m ≤ b.cap) :
    diff (ptr K b n) (ptr K b m) b = .ok ((n : Int) - m) b := by
  simp only [ptr, diff, bind_apply, get_apply]
  split
  · rename_i hc
    simp only [Bool.and_eq_true, beq_iff_eq] at hc
    have h1 : n = 0 := by omega
    have h2 : m = 0 := by omega
    simp [h1, h2]
  · simp

theorem dataPtr_eq (b : Buf C) : dataPtr K b = ptr K b 0 := rfl

/-- The buffer holds the file. -/
structure Rel (K : Container C) (y : Spec.File C) (b : Buf C) : Prop where
  pptr : y.taken = false → b.pptr = ptr K b y.pos
  epptr : y.taken = false → b.epptr = ptr K b b.elems.length
  taken : y.taken = true → y.data = [] ∧ y.pos = 0 ∧ K.nullEmpty = false ∧ b.pptr = .null ∧ b.epptr = .null
  size : b.elems.length ≤ b.cap
  fits : K.Fits b.cap
  pos : y.pos ≤ y.data.length
  len : y.data.length ≤ b.elems.length
  elems : b.elems.take y.data.length = y.data

theorem Container.Fits.mono {n m : Nat} (h : K.Fits n) (hm : m ≤ n) : K.Fits m := fun k hk => Nat.le_trans hm (h k hk)

theorem poff_apply {y : Spec.File C} {b : Buf C} (h : Rel K y b) (ht : y.taken = false) : poff K b = .ok (y.pos : Int) b := by
  have h1 := h.pos; have h2 := h.len; have h3 := h.size
  simp only [poff, bind_apply, get_apply, data_apply, h.pptr ht, dataPtr_eq]
  rw [diff_ptr b y.pos 0 (by omega) (by omega)]
  simp

/-- what growing does in every container -/
structure Container.Grows (K : Container C) : Prop where
  grow_ge : ∀ c n, n ≤ K.grow c n
  grow_fits : ∀ c n, K.Fits n → K.Fits (K.grow c n)

theorem Container.Lawful.grows (hK : K.Lawful) : K.Grows := ⟨hK.grow_ge, hK.grow_fits⟩

/-- `cap_resize_by` keeps the contents and the position and makes room -/
theorem capResizeBy_ok (hK : K.Grows) {y : Spec.File C} {b : Buf C} (h : Rel K y b) (ht : y.taken = false) (n : Nat)
    (hf : K.Fits (b.elems.length + n)) :
    ∃ b', capResizeBy K n b = .ok () b' ∧ Rel K y b' ∧ b.elems.length + n ≤ b'.elems.length := by
  have h1 := h.pos; have h2 := h.len; have h3 := h.size
  -- the first resize
  have key : ∃ b1, resize K (b.elems.length + n) b = .ok () b1 ∧ b1.elems = b.elems ++ List.replicate n K.fill ∧
      b1.elems.length ≤ b1.cap ∧ K.Fits b1.cap := by
    by_cases hc : b.elems.length + n ≤ b.cap
    · refine ⟨{ b with elems := b.elems ++ List.replicate n K.fill }, ?_, rfl, by simpa using hc, h.fits⟩
      simp [resize, hc, List.take_of_length_le]
    · refine ⟨{ b with elems := b.elems ++ List.replicate n K.fill, cap := K.grow b.cap (b.elems.length + n), gen := b.fresh, fresh := b.fresh + 1 }, ?_, rfl, ?_, ?_⟩
      · simp [resize, hc, hf]
      · simpa using hK.grow_ge _ _
      · exact hK.grow_fits _ _ hf
  obtain ⟨b1, e1, l1, c1, f1⟩ := key
  -- the second one
  have e2 : resize K b1.cap b1 = .ok ()
      { b1 with elems := b1.elems ++ List.replicate (b1.cap - b1.elems.length) K.fill } := by
    simp [resize, List.take_of_length_le c1]
  have hlen1 : b1.elems.length = b.elems.length + n := by simp [l1]
  have hp : shift (dataPtr K { b1 with elems := b1.elems ++ List.replicate (b1.cap - b1.elems.length) K.fill }) (y.pos : Int)
      { b1 with elems := b1.elems ++ List.replicate (b1.cap - b1.elems.length) K.fill } = _ := shift_data _ _ (by simp; omega)
  have he : shift (dataPtr K { b1 with elems := b1.elems ++ List.replicate (b1.cap - b1.elems.length) K.fill }) (b1.cap : Int)
      { b1 with elems := b1.elems ++ List.replicate (b1.cap - b1.elems.length) K.fill } = _ := shift_data _ _ (by simp)
  refine ⟨{ b1 with elems := b1.elems ++ List.replicate (b1.cap - b1.elems.length) K.fill, pptr := ptr K b1 y.pos, epptr := ptr K b1 b1.cap }, ?_, ?_, ?_⟩
  · simp only [capResizeBy, bind_apply, poff_apply h ht, get_apply, e1, e2, data_apply, hp, he, setp, modify_apply]
    rfl
  · refine ⟨fun _ => rfl, fun _ => ?_, by simp [ht], ?_, f1, h1, ?_, ?_⟩
    · simp only [List.length_append, List.length_replicate, ptr]
      rw [show b1.elems.length + (b1.cap - b1.elems.length) = b1.cap by omega]
    · simp; omega
    · simp; omega
    · simp only [l1, List.append_assoc]
      rw [List.take_append_of_le_length h2]
      exact h.elems
  · simp; omega

theorem capResizeBy_throw {y : Spec.File C} {b : Buf C} (h : Rel K y b) (ht : y.taken = false) (n : Nat)
    (hf : ¬ K.Fits (b.elems.length + n)) :
    capResizeBy K n b = .throw .outOfRange b := by
  have hc : ¬ b.elems.length + n ≤ b.cap := fun hc => hf (h.fits.mono hc)
  simp [capResizeBy, poff_apply h ht, resize, hc, hf]

/-- Storing at the position inside the memory that is there, and advancing. -/
theorem store (y : Spec.File C) (b : Buf C) (h : Rel K y b) (ht : y.taken = false) (s : List C)
    (hr : y.pos + s.length ≤ b.elems.length) :
    ∃ b', copyTo b.pptr s b = .ok () b' ∧
      ∀ k : Int, k = s.length → ∃ b'', pbump k b' = .ok () b'' ∧ Rel K (y.write s) b'' := by
  have h1 := h.pos; have h2 := h.len; have h3 := h.size
  have hlen : (b.elems.take y.pos ++ s ++ b.elems.drop (y.pos + s.length)).length = b.elems.length := by
    simp; omega
  refine ⟨{ b with elems := b.elems.take y.pos ++ s ++ b.elems.drop (y.pos + s.length) }, ?_, ?_⟩
  · have hpp := h.pptr ht
    simp only [ptr] at hpp
    simp only [copyTo, bind_apply, get_apply]
    by_cases hp : (K.nullEmpty && b.cap == 0) = true
    · have hc := hp
      simp only [Bool.and_eq_true, beq_iff_eq] at hc
      have hs : s = [] := by rw [← List.length_eq_zero_iff]; omega
      have hp0 : y.pos = 0 := by omega
      simp only [hp, if_true] at hpp
      simp only [hpp, hs, if_true, pure_apply, List.append_nil, List.length_nil, Nat.add_zero, List.take_append_drop]
      cases b; simp_all
    · simp only [hp] at hpp
      simp [hpp, hr]
  · rintro k rfl
    have hb : b.pptr = ptr K { b with elems := b.elems.take y.pos ++ s ++ b.elems.drop (y.pos + s.length) } y.pos := h.pptr ht
    refine ⟨{ b with elems := b.elems.take y.pos ++ s ++ b.elems.drop (y.pos + s.length), pptr := ptr K b (y.pos + s.length) }, ?_, ?_⟩
    · have hsh := shift_ptr (K := K) { b with elems := b.elems.take y.pos ++ s ++ b.elems.drop (y.pos + s.length) } y.pos s.length
        (by show _ ≤ b.cap; omega)
      rw [← hb] at hsh
      simp only [pbump, bind_apply, get_apply, hsh]
      rfl
    · have hd : y.data.take y.pos = b.elems.take y.pos := by
        rw [← h.elems, List.take_take]; congr 1; omega
      refine ⟨fun _ => rfl, fun _ => ?_, by simp [Spec.File.write, ht], ?_, h.fits, ?_, ?_, ?_⟩
      · rw [hlen]; exact h.epptr ht
      · rw [hlen]; exact h3
      · simp [Spec.File.write]; omega
      · rw [hlen]; simp [Spec.File.write]; omega
      · simp only [Spec.File.write]
        rw [hd]
        have hl : (List.take y.pos b.elems ++ s ++ List.drop (y.pos + s.length) y.data).length =
            (List.take y.pos b.elems ++ s).length + (y.data.length - (y.pos + s.length)) := by simp only [List.length_append, List.length_drop]
        rw [hl, List.take_length_add_append]
        congr 1
        have := congrArg (List.drop (y.pos + s.length)) h.elems
        rw [List.drop_take] at this
        exact this

/-- Writing by the three paths. -/
theorem sputc_step (hK : K.Grows) {y : Spec.File C} {b : Buf C} (h : Rel K y b) (ht : y.taken = false) (c : C) :
    if K.Fits (y.pos + 1) then ∃ b', sputc K c b = .ok () b' ∧ Rel K (y.write [c]) b'
    else ∃ e, sputc K c b = .throw e b := by
  have h1 := h.pos; have h2 := h.len; have h3 := h.size
  have hrem : diff b.epptr b.pptr b = .ok ((b.elems.length : Int) - y.pos) b := by
    rw [h.epptr ht, h.pptr ht]; exact diff_ptr b _ _ (by omega) (by omega)
  simp only [sputc, bind_apply, get_apply, hrem]
  by_cases hr : (0 : Int) < (b.elems.length : Int) - y.pos
  · have hf : K.Fits (y.pos + 1) := h.fits.mono (by omega)
    rw [if_pos hf]
    obtain ⟨b1, e1, e2⟩ := store y b h ht [c] (by simp; omega)
    obtain ⟨b2, e3, e4⟩ := e2 1 (by simp)
    exact ⟨b2, by rw [if_pos hr]; simp [e1, e3], e4⟩
  · have heq : y.pos = b.elems.length := by omega
    simp only [hr, if_false, overflow, bind_apply]
    by_cases hf : K.Fits (y.pos + 1)
    · rw [if_pos hf]
      rw [heq] at hf
      obtain ⟨b1, e1, hr1, hl⟩ := capResizeBy_ok hK h ht 1 hf
      obtain ⟨b2, e2, e3⟩ := store y b1 hr1 ht [c] (by simp; omega)
      obtain ⟨b3, e4, e5⟩ := e3 1 (by simp)
      exact ⟨b3, by simp [e1, e2, e4], e5⟩
    · rw [if_neg hf]
      rw [heq] at hf
      exact ⟨_, by rw [capResizeBy_throw h ht 1 hf]⟩

theorem bumpArg_eq {n : Nat} (h : n < Spec.chunkLimit K) : bumpArg K n = n := by
  unfold bumpArg Spec.chunkLimit at *
  split at h
  · rename_i hk; simp only [hk, if_true]; omega
  · rename_i hk; simp only [hk]; simp only [toInt32, Bool.false_eq_true, if_false]; omega

theorem xsputn_step (hK : K.Grows) {y : Spec.File C} {b : Buf C} (h : Rel K y b) (ht : y.taken = false) (s : List C)
    (hl : s.length < Spec.chunkLimit K) :
    if K.Fits (y.pos + s.length) then ∃ b', xsputn K s b = .ok () b' ∧ Rel K (y.write s) b'
    else ∃ e, xsputn K s b = .throw e b := by
  have h1 := h.pos; have h2 := h.len; have h3 := h.size
  have hrem : diff b.epptr b.pptr b = .ok ((b.elems.length : Int) - y.pos) b := by
    rw [h.epptr ht, h.pptr ht]; exact diff_ptr b _ _ (by omega) (by omega)
  simp only [xsputn, bind_apply, get_apply, hrem, bumpArg_eq hl]
  by_cases hr : (b.elems.length : Int) - y.pos < s.length
  · have hn : b.elems.length + ((s.length : Int) - ((b.elems.length : Int) - y.pos)).toNat = y.pos + s.length := by omega
    simp only [hr, if_true]
    by_cases hf : K.Fits (y.pos + s.length)
    · rw [if_pos hf]
      rw [← hn] at hf
      obtain ⟨b1, e1, hr1, hl1⟩ := capResizeBy_ok hK h ht _ hf
      obtain ⟨b2, e2, e3⟩ := store y b1 hr1 ht s (by omega)
      obtain ⟨b3, e4, e5⟩ := e3 _ rfl
      exact ⟨b3, by simp [e1, e2, e4], e5⟩
    · rw [if_neg hf]
      rw [← hn] at hf
      exact ⟨_, by rw [bind_apply, capResizeBy_throw h ht _ hf]⟩
  · have hf : K.Fits (y.pos + s.length) := h.fits.mono (by omega)
    rw [if_pos hf]
    obtain ⟨b1, e1, e2⟩ := store y b h ht s (by omega)
    obtain ⟨b2, e3, e4⟩ := e2 _ rfl
    exact ⟨b2, by simp [hr, e1, e3], e4⟩

theorem seekpos_step {y : Spec.File C} {b : Buf C} (h : Rel K y b) (ht : y.taken = false) (t : Int) (h0 : 0 ≤ t)
    (hl : t ≤ y.data.length) (h32 : t < 2147483648) :
    ∃ b', seekpos K t b = .ok t b' ∧ Rel K { y with pos := t.toNat } b' := by
  have h2 := h.len; have h3 := h.size
  obtain ⟨n, rfl⟩ := Int.eq_ofNat_of_zero_le h0
  have hn : n ≤ y.data.length := by omega
  have hc : toInt32 (n : Int) = n := by unfold toInt32; omega
  refine ⟨{ b with pptr := ptr K b n, epptr := ptr K b b.elems.length }, ?_, ?_⟩
  · simp only [seekpos, bind_apply, get_apply, data_apply, hc, shift_data b n (by omega), shift_data b _ h3, setp, modify_apply,
      pure_apply]
  · exact ⟨fun _ => rfl, fun _ => rfl, by simp [ht], h3, h.fits, by simpa using hn, h2, h.elems⟩

/-- One call. -/
theorem call_step (hK : K.Lawful) {op : Op C} {y y' : Spec.File C} {b : Buf C} {r} (h : Rel K y b)
    (hs : Spec.Safe K op y) (hc : Spec.call K op y = some (r, y')) :
    ∃ b', call K op b = some (r, b') ∧ Rel K y' b' := by
  obtain ⟨htk, hs⟩ := hs
  cases op with
  | clear =>
    simp only [Spec.call, Option.some.injEq, Prod.mk.injEq] at hc
    obtain ⟨rfl, rfl⟩ := hc
    refine ⟨{ b with elems := [], pptr := dataPtr K b, epptr := dataPtr K b }, ?_, ?_⟩
    · simp only [call, exec, clear, bind_apply, modify_apply, data_apply, setp, pure_apply]; rfl
    · exact ⟨fun _ => rfl, fun _ => rfl, by simp, by simp, h.fits, by simp, by simp, by simp⟩
  | put c =>
    have ht : y.taken = false := by cases hk : y.taken <;> simp_all
    have := sputc_step hK.grows h ht c
    simp only [Spec.call] at hc
    split at hc
    · rename_i hf
      rw [if_pos hf] at this
      simp only [Option.some.injEq, Prod.mk.injEq] at hc
      obtain ⟨rfl, rfl⟩ := hc
      obtain ⟨b', e, hr⟩ := this
      exact ⟨b', by simp [call, exec, e], hr⟩
    · rename_i hf
      rw [if_neg hf] at this
      simp only [Option.some.injEq, Prod.mk.injEq] at hc
      obtain ⟨rfl, rfl⟩ := hc
      obtain ⟨e, he⟩ := this
      exact ⟨b, by simp [call, exec, he], h⟩
  | write s =>
    have ht : y.taken = false := by cases hk : y.taken <;> simp_all
    have := xsputn_step hK.grows h ht s hs
    simp only [Spec.call] at hc
    split at hc
    · rename_i hf
      rw [if_pos hf] at this
      simp only [Option.some.injEq, Prod.mk.injEq] at hc
      obtain ⟨rfl, rfl⟩ := hc
      obtain ⟨b', e, hr⟩ := this
      exact ⟨b', by simp [call, exec, e], hr⟩
    · rename_i hf
      rw [if_neg hf] at this
      simp only [Option.some.injEq, Prod.mk.injEq] at hc
      obtain ⟨rfl, rfl⟩ := hc
      obtain ⟨e, he⟩ := this
      exact ⟨b, by simp [call, exec, he], h⟩
  | seek off way =>
    have ht : y.taken = false := by cases hk : y.taken <;> simp_all
    simp only [Spec.call] at hc
    split at hc
    · rename_i hb
      simp only [Option.some.injEq, Prod.mk.injEq] at hc
      obtain ⟨rfl, rfl⟩ := hc
      obtain ⟨b', e, hr⟩ := seekpos_step h ht _ hb.1 hb.2 hs.1
      refine ⟨b', ?_, hr⟩
      cases way with
      | «end» => exact absurd rfl hs.2
      | beg => simp only [Spec.File.target] at e ⊢; simp [call, exec, seekoff, e]
      | cur => simp only [Spec.File.target] at e ⊢; simp [call, exec, seekoff, poff_apply h ht, e]
    · simp at hc
  | poff =>
    have ht : y.taken = false := by cases hk : y.taken <;> simp_all
    simp only [Spec.call, Option.some.injEq, Prod.mk.injEq] at hc
    obtain ⟨rfl, rfl⟩ := hc
    exact ⟨b, by simp [call, exec, poff_apply h ht], h⟩
  | get =>
    have ht : y.taken = false := by cases hk : y.taken <;> simp_all
    simp only [Spec.call, Option.some.injEq, Prod.mk.injEq] at hc
    obtain ⟨rfl, rfl⟩ := hc
    simp only at hs
    have h2 := h.len
    refine ⟨{ b with elems := [], cap := K.cap0, gen := b.fresh, fresh := b.fresh + 1, pptr := .null, epptr := .null }, ?_, ?_⟩
    · simp only [call, exec, getContainer, bind_apply, poff_apply h ht, get_apply, set_apply, setp, modify_apply, pure_apply]
      rw [hs]
      simp only [Int.toNat_natCast, h.elems]
      rw [show y.data.length - b.elems.length = 0 by omega]
      simp
    · refine ⟨fun hk => ?_, fun hk => ?_, fun hk => ?_, by simp, hK.cap0_fits, by simp, by simp, by simp⟩
      · simp only [Bool.not_eq_eq_eq_not, Bool.not_false] at hk; simp [ptr, hk, hK.null_cap0 hk]
      · simp only [Bool.not_eq_eq_eq_not, Bool.not_false] at hk; simp [ptr, hk, hK.null_cap0 hk]
      · simp only [Bool.not_eq_eq_eq_not, Bool.not_true] at hk; simp [hk]

/-- Histories. -/
theorem run_rel (hK : K.Lawful) {ops : List (Op C)} {y y' : Spec.File C} {b : Buf C} {rs} (h : Rel K y b)
    (hs : Spec.SafeRun K ops y) (hc : Spec.run K ops y = some (rs, y')) :
    ∃ b', run K ops b = some (rs, b') ∧ Rel K y' b' := by
  induction ops generalizing y b rs with
  | nil =>
    simp only [Spec.run, Option.some.injEq, Prod.mk.injEq] at hc
    obtain ⟨rfl, rfl⟩ := hc
    exact ⟨b, rfl, h⟩
  | cons op ops ih =>
    simp only [Spec.run, Option.bind_eq_bind, Option.bind_eq_some_iff, Option.some.injEq] at hc
    obtain ⟨⟨r, y1⟩, h1, ⟨rs', y2⟩, h2, h3⟩ := hc
    simp only [Prod.mk.injEq] at h3
    obtain ⟨rfl, rfl⟩ := h3
    obtain ⟨w1, e1, hr1⟩ := call_step hK h hs.1 h1
    obtain ⟨w2, e2, hr2⟩ := ih hr1 (hs.2 _ _ h1) h2
    exact ⟨w2, by simp [run, e1, e2], hr2⟩

theorem run_append (a c : List (Op C)) (b : Buf C) :
    run K (a ++ c) b = (run K a b).bind fun p => (run K c p.2).map fun q => (p.1 ++ q.1, q.2) := by
  induction a generalizing b with
  | nil => simp [run]
  | cons op a ih =>
    simp only [List.cons_append, run, Option.bind_eq_bind]
    cases call K op b with
    | none => simp
    | some p =>
      simp only [Option.bind_some, ih]
      cases run K a p.2 with
      | none => simp
      | some q =>
        simp only [Option.bind_some]
        cases run K c q.2 <;> simp

/-- the constructor -/
theorem ctor_rel (hK : K.Lawful) (n : Nat) (hn : K.Fits n) (b0 : Buf C) :
    ∃ b, ctor K n b0 = .ok () b ∧ Rel K Spec.init b := by
  have h0 : Rel K (Spec.init : Spec.File C)
      ⟨[], K.cap0, 0, dataPtr K ⟨[], K.cap0, 0, .null, .null, 1⟩, dataPtr K ⟨[], K.cap0, 0, .null, .null, 1⟩, 1⟩ :=
    ⟨fun _ => rfl, fun _ => rfl, by simp [Spec.init], by simp, hK.cap0_fits, by simp [Spec.init], by simp [Spec.init], by simp [Spec.init]⟩
  obtain ⟨b, e, hr, _⟩ := capResizeBy_ok hK.grows h0 rfl n (by simpa using hn)
  refine ⟨b, ?_, hr⟩
  simp only [ctor, bind_apply, set_apply, data_apply, setp, modify_apply]
  exact e

/-- Construction and a history. -/
theorem program_rel (hK : K.Lawful) {n : Nat} (hn : K.Fits n) {ops : List (Op C)} {y' : Spec.File C} {rs}
    (hs : Spec.SafeRun K ops Spec.init) (hc : Spec.run K ops Spec.init = some (rs, y')) :
    ∃ b', program K n ops = some (rs, b') ∧ Rel K y' b' := by
  obtain ⟨b, e, hr⟩ := ctor_rel hK n hn ⟨[], 0, 0, .null, .null, 0⟩
  obtain ⟨b', e', hr'⟩ := run_rel hK hr hs hc
  exact ⟨b', by simp [program, e, e'], hr'⟩

theorem program_append (n : Nat) (a c : List (Op C)) :
    program K n (a ++ c) = (program K n a).bind fun p => (run K c p.2).map fun q => (p.1 ++ q.1, q.2) := by
  unfold program
  split <;> simp [run_append]

end Itlib.MemOut
