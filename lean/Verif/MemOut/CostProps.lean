import Verif.MemOut.Cost
import Verif.PodVector.Model

/-! # C79: the cost of writing is proportional to what is written -/
namespace Itlib.MemOut
open Itlib
variable {C : Type} {K : Container C}

/-- what refilling costs later -/
def slack (b : Buf C) : Nat := if b.elems.length < b.cap then b.cap else 0

theorem chars_cons (op : Op C) (ops : List (Op C)) : chars (op :: ops) = op.chars + chars ops := rfl

theorem clears_cons (op : Op C) (ops : List (Op C)) : clears (op :: ops) = clears ops + if op.isClear then 1 else 0 := by
  simp [clears, List.countP_cons]

theorem gets_cons (op : Op C) (ops : List (Op C)) : gets (op :: ops) = gets ops + if op.isGet then 1 else 0 := by
  simp [gets, List.countP_cons]

/-- `get_container` leaves an empty container -/
theorem get_shape {y : Spec.File C} {b b' : Buf C} {r} (hr : Rel K y b) (ht : y.taken = false)
    (hb : call K .get b = some (r, b')) : b'.elems = [] ∧ b'.cap = K.cap0 := by
  simp only [call, exec, getContainer, M.bind_apply, poff_apply hr ht, M.get_apply, M.set_apply, setp, M.modify_apply,
    M.pure_apply, Option.some.injEq, Prod.mk.injEq] at hb
  obtain ⟨-, rfl⟩ := hb
  exact ⟨rfl, rfl⟩

/-- one call, `B` being a bound of the capacity -/
theorem cost_call {k : Nat} (hG : K.Geometric k) (hK : K.Lawful) {op : Op C} {y y' : Spec.File C} {b b' : Buf C} {r} {B : Nat}
    (hr : Rel K y b) (h0 : K.cap0 ≤ b.cap) (hs : Spec.Safe K op y)
    (hc : Spec.call K op y = some (r, y')) (hb : call K op b = some (r, b')) (hB : b.cap ≤ B) (hP : 2 * y'.data.length + k ≤ B) :
    b'.cap ≤ B ∧ K.cap0 ≤ b'.cap ∧
      cost op b b' + slack b' + 6 * (B - b'.cap) ≤
        op.chars + (if op.isClear then B else 0) + (if op.isGet then 7 * B else 0) + slack b + 6 * (B - b.cap) := by
  have h3 := hr.size
  by_cases hg : op.isGet = true
  · cases op <;> try cases hg
    have ht : y.taken = false := by
      cases hk : y.taken
      · rfl
      · cases hs.1 hk
    obtain ⟨h1, h2⟩ := get_shape hr ht hb
    simp only [cost, Op.isClear, Op.isGet, if_true, slack, h1, h2, List.length_nil, Nat.mul_zero, Bool.false_eq_true, if_false]
    exact ⟨by omega, by omega, by split <;> split <;> omega⟩
  have hg : op.isGet = false := by simpa using hg
  simp only [hg, Bool.false_eq_true, if_false, Nat.add_zero]
  have hsh := call_shape hK hr hs hg hc hb
  by_cases hcl : op.isClear = true
  · simp only [hcl, if_true] at hsh ⊢
    obtain ⟨h1, h2, h4⟩ := hsh
    simp only [cost, slack, h1, h2, h4, List.length_nil]
    refine ⟨hB, h0, ?_⟩
    split <;> split <;> omega
  · have hcl : op.isClear = false := by simpa using hcl
    simp only [hcl, Bool.false_eq_true, if_false] at hsh ⊢
    obtain ⟨hw, hd⟩ := hsh
    cases hw with
    | stays h =>
      obtain ⟨h1, h2, h4⟩ := h
      simp only [cost, slack, h1, h2, h4]
      exact ⟨hB, h0, by simp⟩
    | fills hl he hc hf =>
      simp only [cost, slack, he, hc, hf, hl, if_true, Nat.lt_irrefl, if_false, Nat.sub_self, Nat.zero_mul]
      exact ⟨hB, h0, by omega⟩
    | grows hn hf he hc ha =>
      have hd : y.pos + op.chars ≤ y'.data.length := by
        rcases hd with ⟨-, -, h⟩ | h
        · omega
        · exact h
      obtain ⟨g1, g2⟩ := hG b.cap _ h0 hn hf
      rw [← hc] at g1 g2
      have hge : b.cap ≤ b'.cap := by
        have := hK.grow_ge b.cap (y.pos + op.chars)
        omega
      simp only [cost, slack, he, ha, Nat.lt_irrefl, if_false]
      rw [show b.fresh + 1 - b.fresh = 1 by omega]
      exact ⟨by omega, by omega, by split <;> omega⟩

/-- a history -/
theorem cost_run {k : Nat} (hG : K.Geometric k) (hK : K.Lawful) {ops : List (Op C)} {y y' : Spec.File C} {b : Buf C} {rs} {B : Nat}
    (hr : Rel K y b) (h0 : K.cap0 ≤ b.cap) (hs : Spec.SafeRun K ops y)
    (hc : Spec.run K ops y = some (rs, y')) (hB : b.cap ≤ B) (hP : 2 * Spec.peak K ops y + k ≤ B) :
    ∃ w, work K ops b = some w ∧ w ≤ chars ops + clears ops * B + gets ops * (7 * B) + slack b + 6 * (B - b.cap) := by
  induction ops generalizing y b rs with
  | nil => exact ⟨0, rfl, by omega⟩
  | cons op ops ih =>
    simp only [Spec.run, Option.bind_eq_bind, Option.bind_eq_some_iff, Option.some.injEq] at hc
    obtain ⟨⟨r, y1⟩, h1, ⟨rs', y2⟩, h2, h3⟩ := hc
    simp only [Prod.mk.injEq] at h3
    obtain ⟨rfl, rfl⟩ := h3
    obtain ⟨b1, e1, hr1⟩ := call_step hK hr hs.1 h1
    simp only [Spec.peak, h1] at hP
    have hp1 : Spec.peak K ops y1 ≤ Nat.max y.data.length (Spec.peak K ops y1) := Nat.le_max_right _ _
    have hp2 : y1.data.length ≤ Spec.peak K ops y1 := by
      cases ops with
      | nil => exact Nat.le_refl _
      | cons o os => exact Nat.le_max_left _ _
    obtain ⟨c1, c2, c3⟩ := cost_call hG hK hr h0 hs.1 h1 e1 hB (by omega)
    obtain ⟨w, ew, hw⟩ := ih hr1 c2 (hs.2 _ _ h1) h2 c1 (by omega)
    refine ⟨cost op b b1 + w, by simp [work, e1, ew], ?_⟩
    rw [chars_cons, clears_cons, gets_cons, Nat.add_mul, Nat.add_mul]
    by_cases hcl : op.isClear = true <;> by_cases hge : op.isGet = true <;>
      simp only [hcl, hge, if_true, Bool.false_eq_true, if_false, Nat.one_mul, Nat.zero_mul, Nat.add_zero] at c3 ⊢ <;> omega

/-- the container after construction is filled -/
theorem ctor_shape (hK : K.Lawful) (n : Nat) (hn : K.Fits n) (b0 : Buf C) :
    ∃ b, ctor K n b0 = .ok () b ∧ Rel K Spec.init b ∧ b.elems.length = b.cap ∧ K.cap0 ≤ b.cap ∧
      b.cap = (if n ≤ K.cap0 then K.cap0 else K.grow K.cap0 n) := by
  obtain ⟨b, e, hr⟩ := ctor_rel hK n hn b0
  refine ⟨b, e, hr, ?_⟩
  have h0 : Rel K (Spec.init : Spec.File C)
      ⟨[], K.cap0, 0, dataPtr K ⟨[], K.cap0, 0, .null, .null, 1⟩, dataPtr K ⟨[], K.cap0, 0, .null, .null, 1⟩, 1⟩ :=
    ⟨fun _ => rfl, fun _ => rfl, by simp [Spec.init], by simp, hK.cap0_fits, by simp [Spec.init], by simp [Spec.init], by simp [Spec.init]⟩
  simp only [ctor, M.bind_apply, M.set_apply, data_apply, setp, M.modify_apply] at e
  obtain ⟨h1, h2⟩ := capResizeBy_shape hK.grows h0 rfl e
  simp only [List.length_nil, Nat.zero_add] at h2
  rcases h2 with ⟨a, c, -⟩ | ⟨a, f, c, -⟩
  · exact ⟨h1, by omega, by rw [if_pos a, c]⟩
  · have := hK.grow_ge K.cap0 n
    exact ⟨h1, by omega, by rw [if_neg (by omega), c]⟩

/-- the capacity after construction -/
def startCap (K : Container C) (n : Nat) : Nat := if n ≤ K.cap0 then K.cap0 else K.grow K.cap0 n

/-- C79. Whatever is written, overwritten and cleared, in single characters and chunks of any size and after seeks: all of it
costs no more than the characters written and six times the largest capacity that can come of it, which is the capacity after
construction or twice the most characters the buffer ever holds (and a constant `k` of the container); each `clear` may cost
that capacity once more, each `get_container` seven times. Missing: the histories of the defect theorems of C28 and C29. -/
theorem C79_amortised_partial {k : Nat} (hG : K.Geometric k) (hK : K.Lawful) {n : Nat} (hn : K.Fits n) {ops : List (Op C)}
    {y : Spec.File C} {rs} (hs : Spec.SafeRun K ops Spec.init) (hc : Spec.run K ops Spec.init = some (rs, y)) :
    ∃ w, programWork K n ops = some w ∧
      w ≤ chars ops + (6 + clears ops + 7 * gets ops) * Nat.max (startCap K n) (2 * Spec.peak K ops Spec.init + k) := by
  obtain ⟨b, e, hr, h1, h2, h3⟩ := ctor_shape hK n hn ⟨[], 0, 0, .null, .null, 0⟩
  have hb : b.cap ≤ Nat.max (startCap K n) (2 * Spec.peak K ops Spec.init + k) := by
    rw [h3]; exact Nat.le_max_left _ _
  obtain ⟨w, ew, hw⟩ := cost_run hG hK hr h2 hs hc hb (Nat.le_max_right _ _)
  refine ⟨w, by simp [programWork, e, ew], ?_⟩
  have : slack b = 0 := by simp [slack, h1]
  rw [Nat.add_mul, Nat.add_mul, Nat.mul_comm 7, Nat.mul_assoc]
  omega

/-- the specification of a text written in pieces: it never holds more than the text -/
theorem peak_pieces (ps : List (Piece C)) (y : Spec.File C) (h : y.pos = y.data.length) :
    Spec.peak K (ps.map Piece.op) y ≤ y.data.length + (text ps).length := by
  induction ps generalizing y with
  | nil => simp [Spec.peak, text]
  | cons p ps ih =>
    have key : ∀ s : List C, (y.write s).data.length = y.data.length + s.length ∧ (y.write s).pos = (y.write s).data.length := by
      intro s; simp [Spec.File.write, h]
    have ht : (text (p :: ps)).length = p.text.length + (text ps).length := by simp [text]
    have fin : ∀ s : List C, s = p.text →
        Spec.peak K (ps.map Piece.op) (y.write s) ≤ y.data.length + (text (p :: ps)).length := by
      intro s hs
      have := ih (y.write s) (key s).2
      rw [(key s).1, hs] at this
      rw [ht, hs]; omega
    have fin' : Spec.peak K (ps.map Piece.op) y ≤ y.data.length + (text (p :: ps)).length := by
      have := ih y h
      rw [ht]; omega
    simp only [List.map_cons, Spec.peak]
    refine Nat.max_le.mpr ⟨by omega, ?_⟩
    cases p with
    | char c =>
      simp only [Piece.op, Spec.call]
      split
      · rename_i r y' e
        split at e <;> simp only [Option.some.injEq, Prod.mk.injEq] at e <;> obtain ⟨-, rfl⟩ := e
        · exact fin [c] rfl
        · exact fin'
      · omega
    | chunk s =>
      simp only [Piece.op, Spec.call]
      split
      · rename_i r y' e
        split at e <;> simp only [Option.some.injEq, Prod.mk.injEq] at e <;> obtain ⟨-, rfl⟩ := e
        · exact fin s rfl
        · exact fin'
      · omega

theorem chars_pieces (ps : List (Piece C)) : chars (ps.map Piece.op) = (text ps).length := by
  induction ps with
  | nil => rfl
  | cons p ps ih =>
    rw [List.map_cons, chars_cons, ih]
    cases p <;> simp [Piece.op, Op.chars, text, Piece.text]; omega

theorem clears_pieces (ps : List (Piece C)) : clears (ps.map Piece.op) = 0 := by
  induction ps with
  | nil => rfl
  | cons p ps ih =>
    rw [List.map_cons, clears_cons, ih]
    cases p <;> rfl

theorem gets_pieces (ps : List (Piece C)) : gets (ps.map Piece.op) = 0 := by
  induction ps with
  | nil => rfl
  | cons p ps ih =>
    rw [List.map_cons, gets_cons, ih]
    cases p <;> rfl

/-- C79. A text written in any pieces — character by character, say — costs no more than a constant for each of its characters. -/
theorem C79_text_linear {k : Nat} (hG : K.Geometric k) (hK : K.Lawful) {n : Nat} (hn : K.Fits n) (ps : List (Piece C))
    (hs : Short K ps) (hf : K.Fits (text ps).length) :
    ∃ w, programWork K n (ps.map Piece.op) = some w ∧ w ≤ 13 * (text ps).length + 6 * (startCap K n + k) := by
  have h := spec_pieces0 ps hs hf
  obtain ⟨h1, rs, h2⟩ : Spec.SafeRun K (ps.map Piece.op) Spec.init ∧ ∃ rs, Spec.run K (ps.map Piece.op) Spec.init = some (rs, ⟨text ps, (text ps).length, false⟩) := by
    exact ⟨h.2, _, h.1⟩
  obtain ⟨w, e, hw⟩ := C79_amortised_partial hG hK hn h1 h2
  refine ⟨w, e, ?_⟩
  rw [chars_pieces, clears_pieces, gets_pieces] at hw
  have hp := peak_pieces (K := K) ps Spec.init rfl
  simp only [Spec.init, List.length_nil, Nat.zero_add] at hp hw
  have hm : Nat.max (startCap K n) (2 * Spec.peak K (ps.map Piece.op) Spec.init + k) ≤
      startCap K n + (2 * (text ps).length + k) := Nat.max_le.mpr ⟨by omega, by simp only [Spec.init]; omega⟩
  simp only [Spec.init] at hm
  omega

/-! ### What is not proportional -/

/-- `m` times: clear and write one character -/
def reuse (c : C) : Nat → List (Op C)
  | 0 => []
  | m + 1 => .clear :: .put c :: reuse c m

theorem reuse_work (hK : K.Lawful) (c : C) (h1 : K.Fits 1) {N : Nat} (m : Nat) {y : Spec.File C} {b : Buf C} (hr : Rel K y b)
    (hN : N ≤ b.cap) : ∃ w, work K (reuse c m) b = some w ∧ m * N ≤ w := by
  induction m generalizing y b with
  | zero => exact ⟨0, rfl, by omega⟩
  | succ m ih =>
    have hs1 : Spec.Safe K (.clear : Op C) y := ⟨fun _ => rfl, trivial⟩
    have hc1 : Spec.call K (.clear : Op C) y = some (.unit, ⟨[], 0, false⟩) := rfl
    obtain ⟨b1, e1, r1⟩ := call_step hK hr hs1 hc1
    obtain ⟨l1, c1, -⟩ : b1.elems = [] ∧ b1.cap = b.cap ∧ b1.fresh = b.fresh := call_shape hK hr hs1 rfl hc1 e1
    have hs2 : Spec.Safe K (.put c) ⟨[], 0, false⟩ := ⟨by simp, trivial⟩
    have hc2 : Spec.call K (.put c) ⟨[], 0, false⟩ = some (.unit, Spec.File.write ⟨[], 0, false⟩ [c]) := by
      simp [Spec.call, h1]
    obtain ⟨b2, e2, r2⟩ := call_step hK r1 hs2 hc2
    obtain ⟨hw, -⟩ : Wrote K 1 ⟨[], 0, false⟩ b1 b2 ∧ _ := call_shape hK r1 hs2 rfl hc2 e2
    have hlen := r2.len
    simp only [Spec.File.write, List.take_nil, List.nil_append, List.drop_nil, List.append_nil, List.length_singleton] at hlen
    have key : N ≤ b2.cap ∧ N ≤ cost (.put c) b1 b2 := by
      cases hw with
      | stays h => rw [h.1, l1] at hlen; simp at hlen
      | fills hl he hc hf => simp only [cost, l1, List.length_nil]; exact ⟨by omega, by omega⟩
      | grows hn hf he hc ha => simp only at hn; exact ⟨by omega, by omega⟩
    obtain ⟨w, e3, hw⟩ := ih r2 key.1
    refine ⟨cost .clear b b1 + (cost (.put c) b1 b2 + w), by simp [reuse, work, e1, e2, e3], ?_⟩
    rw [Nat.add_mul]
    omega

/-- C79, defect. A buffer that was long once and is reused with `clear` fills that length again each time, for one
character. -/
theorem C79_clear_defect (hK : K.Lawful) {n : Nat} (hn : K.Fits n) (s : List C) (hs : s.length < Spec.chunkLimit K)
    (hf : K.Fits s.length) (h1 : K.Fits 1) (c : C) (m : Nat) :
    ∃ w, programWork K n (.write s :: reuse c m) = some w ∧ m * s.length ≤ w := by
  obtain ⟨b, e, hr, -⟩ := ctor_shape hK n hn ⟨[], 0, 0, .null, .null, 0⟩
  obtain ⟨b1, e1, r1⟩ := call_step (op := .write s) hK hr ⟨by simp [Spec.init], hs⟩
    (show _ = some (Reply.unit, Spec.File.write Spec.init s) by simp [Spec.call, Spec.init, hf])
  have hl := r1.len
  have hs' := r1.size
  simp only [Spec.File.write, Spec.init, List.take_nil, List.nil_append, List.drop_nil, List.append_nil] at hl
  obtain ⟨w, ew, hw⟩ := reuse_work hK c h1 (N := s.length) m r1 (by omega)
  exact ⟨cost (.write s) b b1 + w, by simp [programWork, e, work, e1, ew], by omega⟩

theorem exact_work (hK : K.Lawful) (he : ∀ c n, c < n → K.grow c n = n) (c : C) (m : Nat) {y : Spec.File C} {b : Buf C}
    (hr : Rel K y b) (ht : y.taken = false) (hp : y.pos = b.cap) (hf : K.Fits (y.pos + m)) :
    ∃ w, work K (List.replicate m (.put c)) b = some w ∧ m * y.pos * 2 + m * m ≤ 2 * w := by
  induction m generalizing y b with
  | zero => exact ⟨0, rfl, by omega⟩
  | succ m ih =>
    have h1 := hr.pos; have h2 := hr.len; have h3 := hr.size
    have hs : Spec.Safe K (.put c) y := ⟨by simp [ht], trivial⟩
    have hc : Spec.call K (.put c) y = some (.unit, y.write [c]) := by
      simp [Spec.call, Container.Fits.mono hf (show y.pos + 1 ≤ y.pos + (m + 1) by omega)]
    obtain ⟨b1, e1, r1⟩ := call_step hK hr hs hc
    obtain ⟨hw, -⟩ : Wrote K 1 y b b1 ∧ _ := call_shape hK hr hs rfl hc e1
    have hlen := r1.len
    have hd : (y.write [c]).data.length = y.pos + 1 := by simp [Spec.File.write]; omega
    have hpos : (y.write [c]).pos = y.pos + 1 := rfl
    rw [hd] at hlen
    cases hw with
    | stays h => exact absurd h.1 (by omega)
    | fills hl he hc hf => omega
    | grows hn hf' hl hcap ha =>
      rw [he _ _ hn] at hcap
      obtain ⟨w, ew, hw⟩ := ih r1 (show (y.write [c]).taken = false from ht) (by rw [hpos, hcap])
        (by rw [hpos]; rwa [show y.pos + 1 + m = y.pos + (m + 1) by omega])
      refine ⟨cost (.put c) b b1 + w, by simp [List.replicate_succ, work, e1, ew], ?_⟩
      have hcost : y.pos + 1 ≤ cost (.put c) b b1 := by
        simp only [cost, ha, hl, hcap]
        rw [show b.fresh + 1 - b.fresh = 1 by omega]
        omega
      rw [hpos] at hw
      have : (m + 1) * y.pos * 2 + (m + 1) * (m + 1) = m * (y.pos + 1) * 2 + m * m + 2 * y.pos + 1 := by
        simp only [Nat.add_mul, Nat.mul_add]; omega
      omega

/-- C79, limit. With a container that never gets more memory than asked for, the cost of writing character by character is
quadratic. -/
theorem C79_exact_limit (hK : K.Lawful) (h0 : K.cap0 = 0) (he : ∀ c n, c < n → K.grow c n = n) (c : C) (m : Nat) (hf : K.Fits m) :
    ∃ w, programWork K 0 (List.replicate m (.put c)) = some w ∧ m * m ≤ 2 * w := by
  obtain ⟨b, e, hr, -, -, h⟩ := ctor_shape hK 0 (fun _ _ => Nat.zero_le _) ⟨[], 0, 0, .null, .null, 0⟩
  rw [if_pos (Nat.zero_le _), h0] at h
  obtain ⟨w, ew, hw⟩ := exact_work hK he c m hr rfl (by simp [Spec.init, h]) (by simpa [Spec.init] using hf)
  refine ⟨w, by simp [programWork, e, ew], ?_⟩
  simp only [Spec.init] at hw
  omega

/-! ### Containers -/

theorem vec_geometric : vec.Geometric 4 := by
  intro c n _ h _
  simp only [vec]; omega

theorem str_geometric : str.Geometric 0 := by
  intro c n _ h _
  simp only [str]; omega

theorem stat_geometric : stat.Geometric 0 := by
  intro c n h0 h hf
  have := hf 8 rfl
  simp only [stat] at h0
  omega

theorem growLoop_bounds (d f c : Nat) (hc : 0 < c) (h : c < d) (hf : d ≤ c + f) :
    3 * c ≤ 2 * PodVector.growLoop d f c ∧ d ≤ PodVector.growLoop d f c ∧ PodVector.growLoop d f c ≤ 2 * d := by
  induction f generalizing c with
  | zero => omega
  | succ f ih =>
    simp only [PodVector.growLoop]
    rw [if_pos h]
    by_cases h' : (c * 3 + 1) / 2 < d
    · have := ih ((c * 3 + 1) / 2) (by omega) h' (by omega)
      omega
    · have : PodVector.growLoop d f ((c * 3 + 1) / 2) = (c * 3 + 1) / 2 := by
        cases f <;> simp [PodVector.growLoop, h']
      rw [this]; omega

/-- a `pod_vector` of characters -/
def pod : Container Nat := ⟨0, true, 0, PodVector.getNewCapacity, none, false⟩

theorem pod_bounds {c d : Nat} (h : c < d) :
    3 * c ≤ 2 * PodVector.getNewCapacity c d ∧ d ≤ PodVector.getNewCapacity c d ∧ PodVector.getNewCapacity c d ≤ 2 * d := by
  simp only [PodVector.getNewCapacity]
  split
  · omega
  · exact growLoop_bounds d d c (by omega) h (by omega)

theorem pod_geometric : pod.Geometric 0 := by
  intro c n _ h _
  have := pod_bounds h
  exact ⟨this.1, this.2.2⟩

theorem pod_lawful : pod.Lawful := by
  refine ⟨fun c n => ?_, by simp [pod, Container.Fits], by simp [pod, Container.Fits], fun _ => rfl⟩
  simp only [pod, PodVector.getNewCapacity]
  split
  · exact Nat.le_refl _
  · by_cases h : c < n
    · exact (growLoop_bounds n n c (by omega) h (by omega)).2.1
    · have : PodVector.growLoop n n c = c := by cases n <;> simp [PodVector.growLoop, h]
      omega

/-- a container that gets exactly what is asked for -/
def tight : Container Nat := ⟨0, true, 0, fun _ n => n, none, false⟩
example : tight.Lawful ∧ (∀ c n, c < n → tight.grow c n = n) ∧ ∀ m, tight.Fits m :=
  ⟨by refine ⟨?_, ?_, ?_, ?_⟩ <;> simp [tight, Container.Fits], fun _ _ _ => rfl, by simp [tight, Container.Fits]⟩

/-- C79's hypotheses hold of the history of C29's example, with overwriting, a failing write, `get_container` and `clear`, in
a static vector; of a text in pieces in a string and in a `pod_vector` -/
example : stat.Geometric 0 ∧ chars demo = 12 ∧ clears demo = 1 ∧ gets demo = 2 ∧ Spec.peak stat demo Spec.init = 5 ∧
    str.Geometric 0 ∧ pod.Geometric 0 := ⟨stat_geometric, rfl, rfl, rfl, rfl, str_geometric, pod_geometric⟩

/-- concrete costs: ten characters one by one in a doubling vector (1 + 4 + 4 for the first, 1 + 4 + 8 for the fifth...),
the same in a tight one; a long text and then short ones -/
example : programWork vec 0 (List.replicate 10 (.put 1)) = some 54 ∧ programWork tight 0 (List.replicate 10 (.put 1)) = some 75 ∧
    programWork pod 0 (List.replicate 10 (.put 1)) = some 53 ∧
    programWork vec 0 (.write (List.range 100) :: reuse 1 3) = some 603 := by decide +kernel

end Itlib.MemOut
