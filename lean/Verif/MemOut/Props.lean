import Verif.MemOut.Lemmas

/-!
# Properties of `mem_ostreambuf` (C28, C29)

`program K n ops` is: construct with reserve `n`, then the calls `ops`. All theorems hold for every container `K` that obeys
the container laws (`Container.Lawful`): any growth policy, inline capacity, maximum size.
-/
namespace Itlib.MemOut
open Itlib
variable {C : Type} {K : Container C}

/-- One piece of output: a character or a chunk. -/
inductive Piece (C : Type) where
  | char (c : C)
  | chunk (s : List C)

/-- how it is written -/
def Piece.op : Piece C → Op C
  | .char c => .put c
  | .chunk s => .write s

/-- what it adds -/
def Piece.text : Piece C → List C
  | .char c => [c]
  | .chunk s => s

/-- everything written -/
def text (ps : List (Piece C)) : List C := ps.flatMap Piece.text

/-- the pieces are short enough for the conversions of the code -/
def Short (K : Container C) (ps : List (Piece C)) : Prop := ∀ p ∈ ps, p.text.length < Spec.chunkLimit K

theorem spec_run_append (a b : List (Op C)) (y : Spec.File C) :
    Spec.run K (a ++ b) y = (Spec.run K a y).bind fun p => (Spec.run K b p.2).map fun q => (p.1 ++ q.1, q.2) := by
  induction a generalizing y with
  | nil => simp [Spec.run]
  | cons op a ih =>
    simp only [List.cons_append, Spec.run, Option.bind_eq_bind]
    cases Spec.call K op y with
    | none => simp
    | some p =>
      simp only [Option.bind_some, ih]
      cases Spec.run K a p.2 with
      | none => simp
      | some q =>
        simp only [Option.bind_some]
        cases Spec.run K b q.2 <;> simp

/-- writing pieces at the end of a file -/
theorem spec_pieces (ps : List (Piece C)) (hs : Short K ps) (d : List C) (hf : K.Fits (d.length + (text ps).length)) :
    Spec.run K (ps.map Piece.op) ⟨d, d.length, false⟩ =
      some (List.replicate ps.length .unit, ⟨d ++ text ps, (d ++ text ps).length, false⟩) ∧
    Spec.SafeRun K (ps.map Piece.op) ⟨d, d.length, false⟩ := by
  induction ps generalizing d with
  | nil => simp [Spec.run, Spec.SafeRun, text]
  | cons p ps ih =>
    have hlen : (text (p :: ps)).length = p.text.length + (text ps).length := by simp [text]
    have hw : (⟨d, d.length, false⟩ : Spec.File C).write p.text = ⟨d ++ p.text, (d ++ p.text).length, false⟩ := by
      simp [Spec.File.write]
    have hf1 : K.Fits (d.length + p.text.length) := Container.Fits.mono hf (by omega)
    have hc : Spec.call K p.op ⟨d, d.length, false⟩ = some (.unit, ⟨d ++ p.text, (d ++ p.text).length, false⟩) := by
      cases p with
      | char c =>
        have h1 : K.Fits (d.length + 1) := hf1
        simp only [Piece.op, Spec.call, if_pos h1]; rw [← hw]; rfl
      | chunk s =>
        have h1 : K.Fits (d.length + s.length) := hf1
        simp only [Piece.op, Spec.call, if_pos h1]; rw [← hw]; rfl
    obtain ⟨i1, i2⟩ := ih (fun q hq => hs q (List.mem_cons_of_mem _ hq)) (d ++ p.text) (by
      rw [List.length_append, Nat.add_assoc, ← hlen]; exact hf)
    constructor
    · simp only [List.map_cons, Spec.run, hc, Option.bind_eq_bind, Option.bind_some, i1]
      simp [text, List.replicate_succ, List.append_assoc]
    · refine ⟨⟨by simp, ?_⟩, ?_⟩
      · cases p with
        | char c => trivial
        | chunk s => exact hs _ List.mem_cons_self
      · intro r y' h
        rw [hc] at h
        simp only [Option.some.injEq, Prod.mk.injEq] at h
        obtain ⟨_, rfl⟩ := h
        exact i2

theorem safeRun_append (a b : List (Op C)) (y y' : Spec.File C) (rs : List (Reply C)) (ha : Spec.SafeRun K a y)
    (hr : Spec.run K a y = some (rs, y')) (hb : Spec.SafeRun K b y') : Spec.SafeRun K (a ++ b) y := by
  induction a generalizing y rs with
  | nil => simp only [Spec.run, Option.some.injEq, Prod.mk.injEq] at hr; rw [hr.2]; exact hb
  | cons op a ih =>
    simp only [Spec.run, Option.bind_eq_bind, Option.bind_eq_some_iff, Option.some.injEq] at hr
    obtain ⟨⟨r, y1⟩, h1, ⟨rs', y2⟩, h2, h3⟩ := hr
    simp only [Prod.mk.injEq] at h3
    obtain ⟨rfl, rfl⟩ := h3
    refine ⟨ha.1, ?_⟩
    intro r' y'' h
    rw [h1] at h
    simp only [Option.some.injEq, Prod.mk.injEq] at h
    obtain ⟨_, rfl⟩ := h
    exact ih y1 rs' (ha.2 _ _ h1) h2

/-- the same from an empty file -/
theorem spec_pieces0 (ps : List (Piece C)) (hs : Short K ps) (hf : K.Fits (text ps).length) :
    Spec.run K (ps.map Piece.op) ⟨[], 0, false⟩ = some (List.replicate ps.length .unit, ⟨text ps, (text ps).length, false⟩) ∧
    Spec.SafeRun K (ps.map Piece.op) ⟨[], 0, false⟩ := by
  have := spec_pieces (K := K) ps hs [] (by simpa using hf)
  simpa using this

/-- C28. However a text is split into characters and chunks, whatever the container's growth policy and the initial reserve:
`get_container` returns exactly the text. (The text must fit if the container has a maximum size; chunks of 2 GiB and more —
for char16_t: of 65536 characters and more — are excluded, see the defect theorem.) -/
theorem C28_get_is_concatenation_partial (hK : K.Lawful) (n : Nat) (hn : K.Fits n) (ps : List (Piece C)) (hs : Short K ps)
    (hf : K.Fits (text ps).length) :
    ∃ b, program K n (ps.map Piece.op ++ [.get]) = some (List.replicate ps.length .unit ++ [.container (text ps)], b) := by
  obtain ⟨h1, h2⟩ := spec_pieces0 ps hs hf
  obtain ⟨b, hb, _⟩ := program_rel (n := n) hK hn (ops := ps.map Piece.op ++ [.get])
    (rs := List.replicate ps.length .unit ++ [.container (text ps)]) (y' := ⟨[], 0, !K.nullEmpty⟩)
    (safeRun_append _ _ _ _ _ h2 h1 ⟨by simp [Spec.Safe], by intro _ _ _; trivial⟩)
    (by rw [spec_run_append, Spec.init, h1]; simp [Spec.run, Spec.call])
  exact ⟨b, hb⟩

/-- C28. The same after any (safe) history followed by `clear()`. -/
theorem C28_get_after_clear_partial (hK : K.Lawful) (n : Nat) (hn : K.Fits n) (ops : List (Op C)) (rs : List (Reply C))
    (y : Spec.File C) (hr : Spec.run K ops Spec.init = some (rs, y)) (hso : Spec.SafeRun K ops Spec.init)
    (ps : List (Piece C)) (hs : Short K ps) (hf : K.Fits (text ps).length) :
    ∃ b, program K n (ops ++ [.clear] ++ ps.map Piece.op ++ [.get]) =
      some (rs ++ [.unit] ++ List.replicate ps.length .unit ++ [.container (text ps)], b) := by
  obtain ⟨h1, h2⟩ := spec_pieces0 ps hs hf
  have e1 : Spec.run K (ops ++ [.clear]) Spec.init = some (rs ++ [.unit], ⟨[], 0, false⟩) := by
    rw [spec_run_append, hr]; simp [Spec.run, Spec.call]
  have s1 : Spec.SafeRun K (ops ++ [.clear]) Spec.init :=
    safeRun_append _ _ _ _ _ hso hr ⟨⟨by simp, trivial⟩, by intro _ _ _; trivial⟩
  have e2 : Spec.run K (ops ++ [.clear] ++ ps.map Piece.op) Spec.init =
      some (rs ++ [.unit] ++ List.replicate ps.length .unit, ⟨text ps, (text ps).length, false⟩) := by
    rw [spec_run_append, e1, Option.bind_some, h1]; simp
  have s2 := safeRun_append _ _ _ _ _ s1 e1 h2
  obtain ⟨b, hb, _⟩ := program_rel (n := n) hK hn (ops := ops ++ [.clear] ++ ps.map Piece.op ++ [.get])
    (rs := rs ++ [.unit] ++ List.replicate ps.length .unit ++ [.container (text ps)]) (y' := ⟨[], 0, !K.nullEmpty⟩)
    (safeRun_append _ _ _ _ _ s2 e2 ⟨by simp [Spec.Safe], by intro _ _ _; trivial⟩)
    (by rw [spec_run_append, e2]; simp [Spec.run, Spec.call])
  exact ⟨b, hb⟩

/-- C28, defect. After any (safe) history, writing a chunk whose length does not survive the conversion to the stream's
`int_type` and `int` leaves the position somewhere else than behind the chunk — so that `get_container` cuts the text — or is
undefined behaviour. -/
theorem C28_long_chunk_defect (hK : K.Lawful) (n : Nat) (hn : K.Fits n) (ops : List (Op C)) (rs : List (Reply C))
    (y : Spec.File C) (hr : Spec.run K ops Spec.init = some (rs, y)) (hso : Spec.SafeRun K ops Spec.init)
    (ht : y.taken = false) (s : List C) (hs : Spec.chunkLimit K ≤ s.length) (hf : K.Fits (y.pos + s.length)) :
    ∀ rs' b, program K n (ops ++ [.write s, .poff]) = some (rs', b) →
      rs' ≠ rs ++ [.unit, .pos (y.pos + s.length)] := by
  intro rs' b hp
  obtain ⟨b0, h0, hrel⟩ := program_rel (n := n) hK hn hso hr
  have h1 := hrel.pos; have h2 := hrel.len; have h3 := hrel.size
  have hrem : diff b0.epptr b0.pptr b0 = .ok ((b0.elems.length : Int) - y.pos) b0 := by
    rw [hrel.epptr ht, hrel.pptr ht]; exact diff_ptr b0 _ _ (by omega) (by omega)
  rw [program_append, h0] at hp
  simp only [Option.bind_some, Option.map_eq_some_iff] at hp
  obtain ⟨⟨rs1, b1⟩, hrun, heq⟩ := hp
  -- the state after the growth
  have hgrow : ∃ b2, Rel K y b2 ∧ y.pos + s.length ≤ b2.elems.length ∧
      xsputn K s b0 = (do let b ← M.get; copyTo b.pptr s; pbump (bumpArg K s.length) : Mem C Unit) b2 := by
    by_cases hlt : (b0.elems.length : Int) - y.pos < s.length
    · have hn' : b0.elems.length + ((s.length : Int) - ((b0.elems.length : Int) - y.pos)).toNat = y.pos + s.length := by omega
      obtain ⟨b2, e2, hr2, hl2⟩ := capResizeBy_ok hK.grows hrel ht ((s.length : Int) - ((b0.elems.length : Int) - y.pos)).toNat
        (by rw [hn']; exact hf)
      refine ⟨b2, hr2, by omega, ?_⟩
      simp only [xsputn, M.bind_apply, M.get_apply, hrem, hlt, if_true, e2]
    · refine ⟨b0, hrel, by omega, ?_⟩
      simp only [xsputn, M.bind_apply, M.get_apply, hrem, hlt, if_false]
  obtain ⟨b2, hr2, hl2, hx⟩ := hgrow
  obtain ⟨b3, e3, _⟩ := store y b2 hr2 ht s hl2
  have hb3 : b3 = { b2 with elems := b2.elems.take y.pos ++ s ++ b2.elems.drop (y.pos + s.length) } := by
    have hpp := hr2.pptr ht
    have hcap := hr2.size
    have hpos : 0 < s.length := by
      have : 0 < Spec.chunkLimit K := by unfold Spec.chunkLimit; split <;> omega
      omega
    simp only [ptr] at hpp
    by_cases hc : (K.nullEmpty && b2.cap == 0) = true
    · have hc' := hc
      simp only [Bool.and_eq_true, beq_iff_eq] at hc'
      omega
    · simp only [hc] at hpp
      simp [copyTo, hpp, hl2] at e3
      rw [← e3, hpp]
      simp
  have hpp3 : b3.pptr = ptr K b3 y.pos := by rw [hb3]; exact hr2.pptr ht
  have hlen3 : b3.elems.length = b2.elems.length := by rw [hb3]; simp; omega
  have hcap3 : b3.cap = b2.cap := by rw [hb3]
  have hpos : 0 < s.length := by
    have : 0 < Spec.chunkLimit K := by unfold Spec.chunkLimit; split <;> omega
    omega
  have hnn : ¬ (K.nullEmpty && b3.cap == 0) = true := by
    have hcap := hr2.size
    intro hc'
    simp only [Bool.and_eq_true, beq_iff_eq] at hc'
    omega
  have hne : bumpArg K s.length ≠ s.length := by
    unfold bumpArg Spec.chunkLimit at *
    split at hs
    · rename_i hk; simp only [hk, if_true]; omega
    · rename_i hk; simp only [hk, Bool.false_eq_true, if_false, toInt32]; omega
  have hcall : ∀ r b', call K (.write s) b0 = some (r, b') →
      b' = { b3 with pptr := .at b3.gen ((y.pos : Int) + bumpArg K s.length).toNat } ∧
      0 ≤ (y.pos : Int) + bumpArg K s.length ∧ (y.pos : Int) + bumpArg K s.length ≤ b3.cap ∧ r = .unit := by
    intro r b' hc
    have hpp3' : b3.pptr = .at b3.gen y.pos := by rw [hpp3]; simp [ptr, hnn]
    simp only [call, exec, M.bind_apply, hx, M.get_apply, e3, pbump, shift, hpp3'] at hc
    by_cases hb : 0 ≤ (y.pos : Int) + bumpArg K s.length ∧ (y.pos : Int) + bumpArg K s.length ≤ b3.cap
    · simp [hb] at hc
      exact ⟨hc.2.symm, hb.1, hb.2, hc.1.symm⟩
    · simp [hb] at hc
  simp only [run, Option.bind_eq_bind, Option.bind_eq_some_iff, Option.some.injEq] at hrun
  obtain ⟨⟨r1, b4⟩, hc1, ⟨rs2, b5⟩, ⟨⟨r2, b6⟩, hc2, ⟨rs3, b7⟩, h7, h8⟩, h9⟩ := hrun
  obtain ⟨hb4, hlo, hhi, _⟩ := hcall _ _ hc1
  simp only [Prod.mk.injEq] at h7 h8 h9 heq
  obtain ⟨rfl, rfl⟩ := h7
  obtain ⟨rfl, rfl⟩ := h8
  obtain ⟨rfl, rfl⟩ := h9
  obtain ⟨rfl, rfl⟩ := heq
  intro hcon
  have hr2' := List.append_cancel_left hcon
  simp only [List.cons.injEq, and_true] at hr2'
  simp only at hc2
  rw [hb4, hr2'.2] at hc2
  have hd : dataPtr K { b3 with pptr := .at b3.gen ((y.pos : Int) + bumpArg K s.length).toNat } = .at b3.gen 0 := by
    simp only [dataPtr]; rw [if_neg hnn]
  simp only [call, exec, poff, M.bind_apply, M.get_apply, data_apply, hd, diff] at hc2
  simp at hc2
  omega

/-- C28/C29. Every history of writes, seeks, `poff`, `get_container` and `clear` on every container gives the replies of the
file specification. Missing: the cases of the defect theorems (`Spec.Safe` lists them). -/
theorem C29_file_history_partial (hK : K.Lawful) (n : Nat) (hn : K.Fits n) (ops : List (Op C)) (rs : List (Reply C))
    (y : Spec.File C) (hr : Spec.run K ops Spec.init = some (rs, y)) (hs : Spec.SafeRun K ops Spec.init) :
    ∃ b, program K n ops = some (rs, b) := by
  obtain ⟨b, hb, _⟩ := program_rel (n := n) hK hn hs hr
  exact ⟨b, hb⟩

/-- C29. `peek_container` shows the contents of the file, followed by what is reserved. -/
theorem C29_peek_prefix (hK : K.Lawful) (n : Nat) (hn : K.Fits n) (ops : List (Op C)) (rs : List (Reply C))
    (y : Spec.File C) (hr : Spec.run K ops Spec.init = some (rs, y)) (hs : Spec.SafeRun K ops Spec.init) :
    ∃ b rest, program K n ops = some (rs, b) ∧ peekContainer b = .ok (y.data ++ rest) b := by
  obtain ⟨b, hb, hrel⟩ := program_rel (n := n) hK hn hs hr
  refine ⟨b, b.elems.drop y.data.length, hb, ?_⟩
  simp only [peekContainer, M.bind_apply, M.get_apply, M.pure_apply]
  have : y.data ++ b.elems.drop y.data.length = b.elems := by
    have h := List.take_append_drop y.data.length b.elems
    rw [hrel.elems] at h
    exact h
  rw [this]

/-- C29. After `get_container` a buffer over a container whose empty `data()` is null (std::vector) is empty and usable: what
is written next is what the next `get_container` returns. -/
theorem C29_reuse_after_get (hK : K.Lawful) (n : Nat) (hn : K.Fits n) (hv : K.nullEmpty = true) (ops : List (Op C))
    (rs : List (Reply C)) (y : Spec.File C) (hr : Spec.run K ops Spec.init = some (rs, y))
    (hso : Spec.SafeRun K ops Spec.init) (hpos : y.pos = y.data.length) (ht : y.taken = false)
    (ps : List (Piece C)) (hs : Short K ps) (hf : K.Fits (text ps).length) :
    ∃ b, program K n (ops ++ [.get] ++ ps.map Piece.op ++ [.get]) =
      some (rs ++ [.container y.data] ++ List.replicate ps.length .unit ++ [.container (text ps)], b) := by
  obtain ⟨h1, h2⟩ := spec_pieces0 ps hs hf
  have e1 : Spec.run K (ops ++ [.get]) Spec.init = some (rs ++ [.container y.data], ⟨[], 0, false⟩) := by
    rw [spec_run_append, hr]; simp [Spec.run, Spec.call, hv]
  have s1 : Spec.SafeRun K (ops ++ [.get]) Spec.init :=
    safeRun_append _ _ _ _ _ hso hr ⟨⟨by simp [ht], hpos⟩, by intro _ _ _; trivial⟩
  have e2 : Spec.run K (ops ++ [.get] ++ ps.map Piece.op) Spec.init =
      some (rs ++ [.container y.data] ++ List.replicate ps.length .unit, ⟨text ps, (text ps).length, false⟩) := by
    rw [spec_run_append, e1, Option.bind_some, h1]; simp
  have s2 := safeRun_append _ _ _ _ _ s1 e1 h2
  obtain ⟨b, hb, _⟩ := program_rel (n := n) hK hn (ops := ops ++ [.get] ++ ps.map Piece.op ++ [.get])
    (rs := rs ++ [.container y.data] ++ List.replicate ps.length .unit ++ [.container (text ps)]) (y' := ⟨[], 0, !K.nullEmpty⟩)
    (safeRun_append _ _ _ _ _ s2 e2 ⟨by simp [Spec.Safe], by intro _ _ _; trivial⟩)
    (by rw [spec_run_append, e2]; simp [Spec.run, Spec.call])
  exact ⟨b, hb⟩

/-- C29, defect. If the container's `data()` is not null when it is empty (std::string, small_vector, static_vector), then
after any (safe) history and `get_container()`, writing anything, `get_container()` and `poff()` are undefined behaviour. -/
theorem C29_reuse_after_get_defect (hK : K.Lawful) (n : Nat) (hn : K.Fits n) (hv : K.nullEmpty = false) (ops : List (Op C))
    (rs : List (Reply C)) (y : Spec.File C) (hr : Spec.run K ops Spec.init = some (rs, y))
    (hso : Spec.SafeRun K ops Spec.init) (hpos : y.pos = y.data.length) (ht : y.taken = false)
    (op : Op C) (hop : op = .poff ∨ op = .get ∨ (∃ c, op = .put c) ∨ ∃ s, s ≠ [] ∧ op = .write s) :
    (∃ b, program K n (ops ++ [.get]) = some (rs ++ [.container y.data], b)) ∧ program K n (ops ++ [.get] ++ [op]) = none := by
  have e1 : Spec.run K (ops ++ [.get]) Spec.init = some (rs ++ [.container y.data], ⟨[], 0, true⟩) := by
    rw [spec_run_append, hr]; simp [Spec.run, Spec.call, hv]
  have s1 : Spec.SafeRun K (ops ++ [.get]) Spec.init :=
    safeRun_append _ _ _ _ _ hso hr ⟨⟨by simp [ht], hpos⟩, by intro _ _ _; trivial⟩
  obtain ⟨b, hb, hrel⟩ := program_rel (n := n) hK hn s1 e1
  refine ⟨⟨b, hb⟩, ?_⟩
  rw [program_append, hb]
  obtain ⟨-, -, -, hp, he⟩ := hrel.taken rfl
  have hd : dataPtr K b = .at b.gen 0 := by simp [dataPtr, hv]
  have hpoff : poff K b = .ub := by simp [poff, data_apply, hp, hd, diff]
  rcases hop with rfl | rfl | ⟨c, rfl⟩ | ⟨s, hs, rfl⟩
  · simp [run, call, exec, hpoff]
  · simp [run, call, exec, getContainer, hpoff]
  · simp [run, call, exec, sputc, hp, he, diff, overflow, capResizeBy, hpoff]
  · have hpos : 0 < s.length := List.length_pos_iff.2 hs
    simp [run, call, exec, xsputn, hp, he, diff, hpos, capResizeBy, hpoff]

/-- C29, defect. After any (safe) history that leaves the position before the end of what was written, `get_container`
returns only the part before the position; the rest is lost. -/
theorem C29_get_truncates_defect (hK : K.Lawful) (n : Nat) (hn : K.Fits n) (ops : List (Op C))
    (rs : List (Reply C)) (y : Spec.File C) (hr : Spec.run K ops Spec.init = some (rs, y))
    (hso : Spec.SafeRun K ops Spec.init) (hpos : y.pos < y.data.length) (ht : y.taken = false) :
    ∃ b s, program K n (ops ++ [.get]) = some (rs ++ [.container s], b) ∧ s = y.data.take y.pos ∧ s ≠ y.data := by
  obtain ⟨b, hb, hrel⟩ := program_rel (n := n) hK hn hso hr
  have h2 := hrel.len
  rw [program_append, hb]
  refine ⟨{ b with elems := [], cap := K.cap0, gen := b.fresh, fresh := b.fresh + 1, pptr := .null, epptr := .null },
    y.data.take y.pos, ?_, rfl, ?_⟩
  · simp only [Option.bind_some, run, call, exec, getContainer, M.bind_apply, poff_apply hrel ht, M.get_apply, M.set_apply, setp,
      M.modify_apply, M.pure_apply, Int.toNat_natCast, Option.bind_eq_bind, Option.map_some]
    rw [show y.pos - b.elems.length = 0 by omega]
    have : b.elems.take y.pos = y.data.take y.pos := by
      rw [← hrel.elems, List.take_take]; congr 1; omega
    rw [this]
    simp only [List.replicate_zero, List.append_nil]
  · intro hc
    have := congrArg List.length hc
    simp at this
    omega

/-- C29, defect. Seeking relative to the end goes to the end of the container's reserved memory, not to the end of what
was written: after any (safe) history, whenever more is reserved than written. -/
theorem C29_seek_end_defect (hK : K.Lawful) (n : Nat) (hn : K.Fits n) (ops : List (Op C))
    (rs : List (Reply C)) (y : Spec.File C) (hr : Spec.run K ops Spec.init = some (rs, y))
    (hso : Spec.SafeRun K ops Spec.init) (ht : y.taken = false) :
    ∃ b s, program K n ops = some (rs, b) ∧ peekContainer b = .ok s b ∧
      (y.data.length < s.length → s.length < 2147483648 →
        ∃ b', program K n (ops ++ [.seek 0 .end, .poff]) = some (rs ++ [.pos s.length, .pos s.length], b')) := by
  obtain ⟨b, hb, hrel⟩ := program_rel (n := n) hK hn hso hr
  refine ⟨b, b.elems, hb, rfl, ?_⟩
  intro _ h32
  have h3 := hrel.size
  have hrel' : Rel K (⟨b.elems, 0, false⟩ : Spec.File C) { b with pptr := ptr K b 0 } :=
    ⟨fun _ => rfl, fun _ => hrel.epptr ht, by simp, h3, hrel.fits, by simp, by simp, by simp⟩
  have hc : toInt32 (b.elems.length : Int) = b.elems.length := by unfold toInt32; omega
  obtain ⟨b', e, hr'⟩ : ∃ b', seekpos K (b.elems.length : Int) b = .ok (b.elems.length : Int) b' ∧
      Rel K ⟨b.elems, b.elems.length, false⟩ b' := by
    refine ⟨{ b with pptr := ptr K b b.elems.length, epptr := ptr K b b.elems.length }, ?_, ?_⟩
    · simp only [seekpos, M.bind_apply, M.get_apply, data_apply, hc, shift_data b _ h3, setp, M.modify_apply, M.pure_apply]
    · exact ⟨fun _ => rfl, fun _ => rfl, by simp, h3, hrel.fits, by simp, by simp, by simp⟩
  refine ⟨b', ?_⟩
  rw [program_append, hb]
  have hp := poff_apply hr' rfl
  simp only [Option.bind_some, run, call, exec, seekoff, M.bind_apply, M.get_apply, Int.add_zero, e, M.pure_apply,
    Option.bind_eq_bind, hp]
  simp

/-- where a seek goes, and what `poff` says then -/
theorem seekpos_poff (b : Buf C) (hs : b.elems.length ≤ b.cap) (hc : 0 < b.cap) (t p : Int) (b' : Buf C)
    (h : seekpos K t b = .ok p b') : poff K b' = .ok (toInt32 t) b' := by
  generalize hv : toInt32 t = v at *
  have hnn : ¬ (K.nullEmpty && b.cap == 0) = true := by
    intro hc'
    simp only [Bool.and_eq_true, beq_iff_eq] at hc'
    omega
  have hd : dataPtr K b = .at b.gen 0 := by simp only [dataPtr]; rw [if_neg hnn]
  have hsh := shift_data (K := K) b b.elems.length hs
  rw [hd] at hsh
  simp only [seekpos, hv, M.bind_apply, M.get_apply, data_apply, hd] at h
  by_cases hr : 0 ≤ v ∧ v ≤ b.cap
  · have hsv : shift (.at b.gen 0) v b = .ok (.at b.gen v.toNat) b := by simp [shift, hr]
    simp only [hsv, hsh, setp, M.modify_apply, M.pure_apply, Res.ok.injEq] at h
    obtain ⟨_, rfl⟩ := h
    have hd' : dataPtr K { b with pptr := .at b.gen v.toNat, epptr := ptr K b b.elems.length } = .at b.gen 0 := hd
    simp only [poff, M.bind_apply, M.get_apply, data_apply, hd']
    simp [diff]; omega
  · have hsv : shift (.at b.gen 0) v b = .ub := by simp [shift, hr]
    simp [hsv] at h

/-- C29, defect. Seeking to a position of 2 GiB or more inside of what was written does not go there (or is undefined
behaviour). -/
theorem C29_seek_far_defect (hK : K.Lawful) (n : Nat) (hn : K.Fits n) (ops : List (Op C)) (rs : List (Reply C))
    (y : Spec.File C) (hr : Spec.run K ops Spec.init = some (rs, y)) (hso : Spec.SafeRun K ops Spec.init)
    (t : Nat) (hlo : 2147483648 ≤ t) (hhi : t ≤ y.data.length) :
    ∀ rs' b, program K n (ops ++ [.seek t .beg, .poff]) = some (rs', b) →
      ∃ p, p ≠ (t : Int) ∧ rs' = rs ++ [.pos t, .pos p] := by
  intro rs' b' hp
  have hne : toInt32 (t : Int) ≠ t := by unfold toInt32; omega
  have htpos : 0 < t := by omega
  clear hlo
  obtain ⟨b, hb, hrel⟩ := program_rel (n := n) hK hn hso hr
  have h2 := hrel.len; have h3 := hrel.size
  rw [program_append, hb] at hp
  simp only [Option.bind_some, Option.map_eq_some_iff] at hp
  obtain ⟨⟨rs1, b1⟩, hrun, heq⟩ := hp
  simp only [run, Option.bind_eq_bind, Option.bind_eq_some_iff, Option.some.injEq] at hrun
  obtain ⟨⟨r1, b4⟩, hc1, ⟨rs2, b5⟩, ⟨⟨r2, b6⟩, hc2, ⟨rs3, b7⟩, h7, h8⟩, h9⟩ := hrun
  simp only [Prod.mk.injEq] at h7 h8 h9 heq
  obtain ⟨rfl, rfl⟩ := h7
  obtain ⟨rfl, rfl⟩ := h8
  obtain ⟨rfl, rfl⟩ := h9
  obtain ⟨rfl, rfl⟩ := heq
  simp only [call, exec, seekoff, M.bind_apply] at hc1
  cases hs : seekpos K (t : Int) b with
  | ub => simp [hs] at hc1
  | throw e b'' =>
    exfalso
    have hd := data_apply (K := K) b
    simp only [seekpos, M.bind_apply, M.get_apply, hd] at hs
    have hsn : ∀ q v e' b'', shift q v b ≠ .throw e' b'' := by
      intro q v e' b''
      simp only [shift, M.bind_apply, M.get_apply]
      cases q <;> simp only <;> split <;> simp
    have hso : ∀ q v q' b'', shift q v b = .ok q' b'' → b'' = b := by
      intro q v q' b''
      simp only [shift, M.bind_apply, M.get_apply]
      cases q <;> simp only <;> split <;> simp <;> intro _ h <;> exact h.symm
    cases hs1 : shift (dataPtr K b) (toInt32 (t : Int)) b with
    | ub => simp [hs1] at hs
    | throw e b3 => exact hsn _ _ _ _ hs1
    | ok q b3 =>
      have hb3 := hso _ _ _ _ hs1
      subst hb3
      simp only [hs1, shift_data b3 _ h3, setp, M.modify_apply, M.pure_apply] at hs
      cases hs
  | ok p b'' =>
    have hpo := seekpos_poff b h3 (by omega) t p b'' hs
    have hp : p = t := by
      simp only [seekpos, M.bind_apply, M.get_apply, data_apply] at hs
      split at hs <;> try (cases hs)
      split at hs <;> try (cases hs)
      rfl
    subst hp
    simp only [hs, M.pure_apply, Option.some.injEq, Prod.mk.injEq] at hc1
    obtain ⟨rfl, rfl⟩ := hc1
    simp only [call, exec, M.bind_apply, hpo, M.pure_apply, Option.some.injEq, Prod.mk.injEq] at hc2
    obtain ⟨rfl, rfl⟩ := hc2
    exact ⟨_, hne, rfl⟩

/-! ### Concrete cases -/

/-- a vector that doubles, with room for at least 4 -/
def vec : Container Nat := ⟨0, true, 0, fun c n => max 4 (max n (2 * c)), none, false⟩
/-- a string with 15 characters of inline storage -/
def str : Container Nat := ⟨0, false, 15, fun c n => max n (2 * c), none, false⟩
/-- a static vector of 8 char16_t -/
def stat : Container Nat := ⟨0, false, 8, fun _ n => max n 8, some 8, true⟩

theorem vec_lawful : vec.Lawful := by
  refine ⟨?_, ?_, ?_, ?_⟩ <;> simp [vec, Container.Fits] <;> omega
theorem str_lawful : str.Lawful := by
  refine ⟨?_, ?_, ?_, ?_⟩ <;> simp [str, Container.Fits] <;> omega
theorem stat_lawful : stat.Lawful := by
  refine ⟨?_, ?_, ?_, ?_⟩ <;> simp [stat, Container.Fits] <;> omega

/-- pieces meeting the hypotheses of C28 -/
def pieces : List (Piece Nat) := [.char 1, .chunk [2, 3, 4, 5], .chunk [], .char 6]
example : Short vec pieces ∧ Short str pieces ∧ vec.Fits (text pieces).length ∧ text pieces = [1, 2, 3, 4, 5, 6] := by
  refine ⟨?_, ?_, ?_, rfl⟩
  · intro p hp; simp only [pieces, List.mem_cons, List.not_mem_nil, or_false] at hp; rcases hp with rfl | rfl | rfl | rfl <;> simp [Spec.chunkLimit, vec, Piece.text]
  · intro p hp; simp only [pieces, List.mem_cons, List.not_mem_nil, or_false] at hp; rcases hp with rfl | rfl | rfl | rfl <;> simp [Spec.chunkLimit, str, Piece.text]
  · intro m hm; simp [vec] at hm

/-- a history meeting the hypotheses of C29, with overwriting, a failing write, and reuse after `clear` -/
def demo : List (Op Nat) :=
  [.write [1, 2, 3, 4, 5], .seek 1 .beg, .put 9, .write [8], .seek (-1) .cur, .poff, .seek 5 .beg, .write [6, 7, 8, 9], .get, .clear,
   .put 1, .get]
example : ∃ y, Spec.run stat demo Spec.init = some ([.unit, .pos 1, .unit, .unit, .pos 2, .pos 2, .pos 5, .exc,
      .container [1, 9, 8, 4, 5], .unit, .unit, .container [1]], y) ∧ Spec.SafeRun stat demo Spec.init := by
  refine ⟨_, rfl, ?_⟩
  have hf : ∀ n, stat.Fits n ↔ n ≤ 8 := by intro n; simp [Container.Fits, stat]
  have hl : Spec.chunkLimit stat = 65536 := rfl
  have hn : stat.nullEmpty = false := rfl
  simp [Spec.SafeRun, Spec.Safe, demo, Spec.call, Spec.init, Spec.File.write, Spec.File.target, hf, hl, hn]

/-- the reachable state of the truncation defect: position before the end -/
example : ∃ rs y, Spec.run vec [.write [1, 2, 3], .seek 1 .beg] Spec.init = some (rs, y) ∧
    Spec.SafeRun vec [.write [1, 2, 3], .seek 1 .beg] Spec.init ∧ y.pos < y.data.length ∧ y.taken = false := by
  refine ⟨_, _, rfl, ?_, by decide, rfl⟩
  have hf : ∀ n, vec.Fits n := by intro n; simp [Container.Fits, vec]
  have hl : Spec.chunkLimit vec = 2147483648 := rfl
  simp [Spec.SafeRun, Spec.Safe, Spec.call, Spec.init, Spec.File.write, Spec.File.target, hf, hl]

/-- more reserved than written (the seek-end defect): one character in a vector with capacity 4 -/
example : ∃ b, program vec 0 [.put 7] = some ([.unit], b) ∧ b.elems = [7, 0, 0, 0] := ⟨_, rfl, rfl⟩

/-- the growth is tested by a concrete run: text longer than the inline capacity of the string -/
example : ∃ b, program str 0 [.write (List.range 20), .put 20, .get] = some ([.unit, .unit, .container (List.range 21)], b) :=
  ⟨_, rfl⟩

end Itlib.MemOut
