import Verif.Utility.Model
import Verif.Core.Tac
import Mathlib.Tactic.Linarith
import Mathlib.Data.List.Basic

/-! # bit_cast and owner_from_member (C46) -/
namespace Itlib.Utility

/-- two ranges of memory have no byte in common -/
def Disjoint (a b : Addr) (n : Nat) : Prop :=
  ∀ i j, i < n → j < n → a + BitVec.ofNat 64 i ≠ b + BitVec.ofNat 64 j

theorem bytes_congr {m m' : Mem} {a : Addr} {n : Nat} (h : ∀ i, i < n → m' (a + BitVec.ofNat 64 i) = m (a + BitVec.ofNat 64 i)) :
    m'.bytes a n = m.bytes a n := by
  apply List.map_congr_left
  intro i hi
  exact h i (List.mem_range.mp hi)

theorem ofNat_inj {i j n : Nat} (hn : n ≤ 2 ^ 64) (hi : i < n) (hj : j < n) (a : Addr)
    (h : a + BitVec.ofNat 64 i = a + BitVec.ofNat 64 j) : i = j := by
  rw [BitVec.add_right_inj] at h
  have := congrArg BitVec.toNat h
  simp only [BitVec.toNat_ofNat] at this
  rw [Nat.mod_eq_of_lt (by omega), Nat.mod_eq_of_lt (by omega)] at this
  exact this

theorem memcpy_spec {dst src : Addr} {N : Nat} (hN : N ≤ 2 ^ 64) (hd : Disjoint dst src N) :
    ∀ (n i : Nat) (m : Mem), i + n = N →
      ∃ m', memcpy dst src i n m = .ok () m' ∧
        (∀ j, i ≤ j → j < N → m' (dst + BitVec.ofNat 64 j) = m (src + BitVec.ofNat 64 j)) ∧
        (∀ a, (∀ j, i ≤ j → j < N → a ≠ dst + BitVec.ofNat 64 j) → m' a = m a) := by
  intro n
  induction n with
  | zero => intro i m h; exact ⟨m, rfl, fun j h1 h2 => by omega, fun _ _ => rfl⟩
  | succ n ih =>
    intro i m h
    obtain ⟨m', e, h1, h2⟩ := ih (i + 1) (Function.update m (dst + BitVec.ofNat 64 i) (m (src + BitVec.ofNat 64 i))) (by omega)
    refine ⟨m', by simp [memcpy, peek, poke, e], ?_, ?_⟩
    · intro j hj hlt
      by_cases hij : j = i
      · subst hij
        rw [h2]
        · simp
        · intro k hk hkN c
          have := ofNat_inj hN hlt hkN dst c
          omega
      · rw [h1 j (by omega) hlt, Function.update_of_ne]
        exact fun c => hd i j (by omega) hlt c.symm
    · intro a ha
      rw [h2 a (fun j hj hlt => ha j (by omega) hlt), Function.update_of_ne]
      exact ha i le_rfl (by omega)

/-- **C46.** `bit_cast` is the reading of the bytes of its argument as a value of the other type, for all types of equal
size, all memories and all places of argument and local variable; the argument and everything outside of the local variable
keep their bytes. -/
theorem C46_bit_cast (Src Dst : Ty) (hs : Dst.size = Src.size) (hN : Src.size ≤ 2 ^ 64) (pick : List Byte → List Byte)
    (hp : Copies Dst pick) (tmp src : Addr) (hd : Disjoint tmp src Src.size) (m : Mem) :
    ∃ r m', bitCast Src pick Dst tmp src m = .ok r m' ∧ r.length = Dst.size ∧ Dst.dec r = Dst.dec (m.bytes src Src.size) ∧
      m'.bytes src Src.size = m.bytes src Src.size ∧
      ∀ a, (∀ j, j < Src.size → a ≠ tmp + BitVec.ofNat 64 j) → m' a = m a := by
  obtain ⟨m', e, h1, h2⟩ := memcpy_spec hN hd Src.size 0 m (by omega)
  have hb : m'.bytes tmp Dst.size = m.bytes src Src.size := by
    rw [hs]
    apply List.map_congr_left
    intro i hi
    exact h1 i (by omega) (List.mem_range.mp hi)
  have hl : (m.bytes src Src.size).length = Dst.size := by simp [Mem.bytes, hs]
  refine ⟨_, m', by simp only [bitCast, M.bind_apply, e, M.get_apply, M.pure_apply, hb], (hp _ hl).1, (hp _ hl).2, ?_, ?_⟩
  · apply bytes_congr
    intro i hi
    apply h2
    intro j _ hj c
    exact hd j i hj hi c.symm
  · intro a ha
    exact h2 a fun j _ hj => ha j hj

/-- no two byte strings have the same value -/
def NoPadding (T : Ty) : Prop := ∀ b c, b.length = T.size → c.length = T.size → T.dec b = T.dec c → b = c

/-- **C46.** Casting to another type of equal size and back gives back the value, if the type between has no padding. The
result of the first cast is stored at `mid` before the second one. -/
theorem C46_bit_cast_round_trip (Src Dst : Ty) (hs : Dst.size = Src.size) (hN : Src.size ≤ 2 ^ 64) (hpad : NoPadding Dst)
    (pick pick' : List Byte → List Byte) (hp : Copies Dst pick) (hp' : Copies Src pick') (tmp src tmp' mid : Addr)
    (hd : Disjoint tmp src Src.size) (hd' : Disjoint tmp' mid Src.size) (m : Mem) :
    ∃ r m', bitCast Src pick Dst tmp src m = .ok r m' ∧
      ∀ m2 : Mem, m2.bytes mid Dst.size = r →
        ∃ r' m3, bitCast Dst pick' Src tmp' mid m2 = .ok r' m3 ∧ Src.dec r' = Src.dec (m.bytes src Src.size) := by
  obtain ⟨r, m', e, hl, hv, -, -⟩ := C46_bit_cast Src Dst hs hN pick hp tmp src hd m
  refine ⟨r, m', e, fun m2 h2 => ?_⟩
  obtain ⟨r', m3, e', -, hv', -, -⟩ := C46_bit_cast Dst Src hs.symm (by omega) pick' hp' tmp' mid (by rw [hs]; exact hd') m2
  refine ⟨r', m3, e', ?_⟩
  rw [hv', h2, hpad r (m.bytes src Src.size) hl (by simp [Mem.bytes, hs]) hv]

/-- an unsigned integer of `n` bytes, the lowest byte first -/
def uintLE (n : Nat) : Ty := ⟨n, Nat, fun bs => if bs.length = n then some (bs.foldr (fun b v => b.toNat + 256 * v) 0) else none⟩
/-- an unsigned integer of `n` bytes, the highest byte first -/
def uintBE (n : Nat) : Ty := ⟨n, Nat, fun bs => if bs.length = n then some (bs.reverse.foldr (fun b v => b.toNat + 256 * v) 0) else none⟩
/-- a structure whose last `k` bytes are padding -/
def padded (n k : Nat) : Ty := ⟨n + k, List Byte, fun bs => if bs.length = n + k then some (bs.take n) else none⟩

theorem foldr_inj : ∀ b c : List Byte, b.length = c.length →
    b.foldr (fun b v => b.toNat + 256 * v) 0 = c.foldr (fun b v => b.toNat + 256 * v) 0 → b = c
  | [], [], _, _ => rfl
  | [], _ :: _, h, _ => by simp at h
  | _ :: _, [], h, _ => by simp at h
  | x :: b, y :: c, h, e => by
    simp only [List.foldr_cons] at e
    have hx := x.isLt
    have hy := y.isLt
    have h1 : x = y := BitVec.eq_of_toNat_eq (by omega)
    have h2 := foldr_inj b c (by simpa using h) (by omega)
    rw [h1, h2]

theorem uintLE_noPadding (n : Nat) : NoPadding (uintLE n) := by
  intro b c hb hc e
  simp only [uintLE] at hb hc e
  simp only [hb, hc, if_true, Option.some.injEq] at e
  exact foldr_inj b c (by omega) e

theorem uintBE_noPadding (n : Nat) : NoPadding (uintBE n) := by
  intro b c hb hc e
  simp only [uintBE] at hb hc e
  simp only [hb, hc, if_true, Option.some.injEq] at e
  exact List.reverse_injective (foldr_inj _ _ (by simp [hb, hc]) e)

/-- **C46, the limit.** With padding in the type between, a compiler may lose what was in the padding: for every number of
bytes and every positive amount of padding there is a way to copy values with which some integer does not come back. -/
theorem C46_padding_is_lost (n k : Nat) (hk : 0 < k) (hN : n + k ≤ 2 ^ 64) (tmp src tmp' mid : Addr)
    (hd : Disjoint tmp src (n + k)) (hd' : Disjoint tmp' mid (n + k)) :
    ∃ (pick : List Byte → List Byte) (m : Mem) (r : List Byte) (m' : Mem), Copies (padded n k) pick ∧
      bitCast (uintLE (n + k)) pick (padded n k) tmp src m = .ok r m' ∧
      ∀ m2 : Mem, m2.bytes mid (n + k) = r → ∀ r' m3, bitCast (padded n k) id (uintLE (n + k)) tmp' mid m2 = .ok r' m3 →
        (uintLE (n + k)).dec r' ≠ (uintLE (n + k)).dec (m.bytes src (n + k)) := by
  have hp : Copies (padded n k) fun bs => bs.take n ++ List.replicate k 0 := by
    intro bs hb
    simp only [padded] at hb ⊢
    have : min n bs.length = n := by omega
    simp [hb]
  obtain ⟨m', e0, -, -⟩ := memcpy_spec (dst := tmp) (src := src) hN hd (n + k) 0 (fun _ => 1) (by omega)
  refine ⟨_, fun _ => 1, (m'.bytes tmp (n + k)).take n ++ List.replicate k 0, m', hp, ?_, ?_⟩
  · simp only [bitCast, uintLE, padded, M.bind_apply, e0, M.get_apply, M.pure_apply]
  · intro m2 h2 r' m3 e
    obtain ⟨r2, m4, e', hl, hv, -, -⟩ := C46_bit_cast (padded n k) (uintLE (n + k)) rfl hN id
      (fun bs h => ⟨h, rfl⟩) tmp' mid hd' m2
    rw [e] at e'
    cases e'
    rw [hv, show (padded n k).size = n + k from rfl, h2]
    intro c
    have := uintLE_noPadding (n + k) _ _ (by simp [uintLE, Mem.bytes]) (by simp [uintLE, Mem.bytes]) c
    have h3 := congrArg (fun l => l[n]?) this
    simp only [Mem.bytes] at h3
    rw [List.getElem?_append_right (by simp)] at h3
    simp [hk] at h3

/-- **C46.** `owner_from_member` of a member of an object gives back the address of the object: for every address and every
place of the member in its owner. -/
theorem C46_owner_from_member (owner ptr : Addr) : ownerFromMember (memberAddr owner ptr) ptr = owner := by
  show owner + ptr - (0#64 + ptr) = owner
  rw [BitVec.zero_add, BitVec.add_sub_cancel]

/-- **C46.** The converse: what `owner_from_member` gives is the only address of an owner with the member at that place. -/
theorem C46_owner_unique (owner member ptr : Addr) : memberAddr owner ptr = member ↔ owner = ownerFromMember member ptr := by
  constructor
  · rintro rfl; exact (C46_owner_from_member owner ptr).symm
  · rintro rfl
    show member - (0#64 + ptr) + ptr = member
    rw [BitVec.zero_add, BitVec.sub_add_cancel]

/-- **C46.** Members of members: applying `owner_from_member` twice gives the outer owner. -/
theorem C46_owner_nested (owner p q : Addr) : ownerFromMember (ownerFromMember (memberAddr (memberAddr owner p) q) q) p = owner := by
  rw [C46_owner_from_member, C46_owner_from_member]

/-- the hypotheses hold for eight byte integers of different byte orders at distinct places -/
example : (uintBE 8).size = (uintLE 8).size ∧ Copies (uintBE 8) id ∧ NoPadding (uintBE 8) ∧ Disjoint 0x1000 0x2000 8 := by
  refine ⟨rfl, fun bs h => ⟨h, rfl⟩, uintBE_noPadding 8, ?_⟩
  intro i j hi hj c
  have := congrArg BitVec.toNat c
  have h1 : (0x1000 : Addr).toNat = 0x1000 := rfl
  have h2 : (0x2000 : Addr).toNat = 0x2000 := rfl
  simp only [BitVec.toNat_add, BitVec.toNat_ofNat, h1, h2] at this
  omega

end Itlib.Utility
