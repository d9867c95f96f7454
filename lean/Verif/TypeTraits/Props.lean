import Mathlib.Data.Nat.ModEq
import Verif.Core.Tac
import Verif.TypeTraits.Model

/-! # C54: `is_noop_convertible` -/
namespace Itlib.TypeTraits
variable {F : Type} (w : World F)

/-- The integral type that a type is, or is an enumeration over. -/
def under : Ty → Option ITy
  | .integral i | .enm _ i => some i
  | _ => none

/-- Pairs of types for which the trait is right: the target is not an enumeration over `bool` (or the source has no other
values than such), pointers are to the same class or to one at the same address, floating point types agree on what bytes
mean, the null pointer to member is zeros, and pointers to members are the same in both classes. -/
def Plain (a b : Ty) : Prop :=
  (∀ k, b = .enm k .bool → under a = some .bool ∨ a = .null) ∧
  (∀ c d, a = .ptr c → b = .ptr d → w.offset c d % 256 ^ w.pbytes = 0) ∧
  (∀ f g, a = .flt f → b = .flt g → ∀ n, w.fwrite g (w.fread f n) = n) ∧
  (∀ k d, a = .null → b = .mem k d → w.mnull k = 0) ∧
  (∀ k c d, a = .mem k c → b = .mem k d → ∀ n, n < 256 ^ w.mbytes k → w.mcast k c d n = n)

/-- there is a cast if and only if there is a result, for every value -/
theorem castable_iff (a b : Ty) (n : Nat) : castable a b = true ↔ (castBytes w a b n).isSome = true := by
  cases a <;> cases b <;> simp only [castable, castBytes, read, convert, write, Option.bind_eq_bind, Option.bind_some,
    Option.bind_none, Option.isSome_some, Option.isSome_none, Bool.false_eq_true]
  case mem.integral k c i =>
    cases i <;> simp
  case mem.mem k c l d =>
    by_cases h : k = l <;> simp [h]

theorem wrap_read (b : Nat) (s : Bool) (n : Nat) (hn : n < 256 ^ b) :
    (((ITy.int b s).read n) % 256 ^ b).toNat = n := by
  have h0 : ((256 ^ b : Nat) : Int) = 256 ^ b := by rw [Int.natCast_pow]; rfl
  have hn' : (n : Int) < 256 ^ b := by rw [← h0]; exact_mod_cast hn
  simp only [ITy.read]
  split_ifs with h
  · rw [Int.sub_emod_right, Int.emod_eq_of_lt (by omega) hn']
    simp
  · rw [Int.emod_eq_of_lt (by omega) hn']
    simp

theorem write_convert (b : Nat) (s : Bool) (v : Int) : (ITy.int b s).write ((ITy.int b s).convert v) = (v % 256 ^ b).toNat := by
  simp only [ITy.write, ITy.convert]
  split_ifs with h
  · rw [Int.sub_emod_right, Int.emod_emod]
  · rw [Int.emod_emod]

/-- between integral types of the same size, if the target is not `bool` -/
theorem integral_noop {i j : ITy} (hsz : i.bytes = j.bytes) (hj : j = .bool → i = .bool) {n : Nat} (hn : i.Valid n) :
    j.write (j.convert (i.read n)) = n := by
  cases j with
  | bool =>
    rw [hj rfl] at hn ⊢
    simp only [ITy.Valid] at hn
    simp only [ITy.write, ITy.convert, ITy.read]
    split_ifs with h <;> omega
  | int b s =>
    rw [write_convert]
    cases i with
    | bool =>
      simp only [ITy.bytes] at hsz
      simp only [ITy.Valid] at hn
      subst hsz
      simp only [ITy.read]
      omega
    | int b' s' =>
      simp only [ITy.bytes] at hsz
      subst hsz
      exact wrap_read _ _ _ hn

theorem addr_noop (a : Nat) (m : Nat) (h : a < 256 ^ m) : ((a : Int) % 256 ^ m).toNat = a := by
  have h0 : ((256 ^ m : Nat) : Int) = 256 ^ m := by rw [Int.natCast_pow]; rfl
  rw [Int.emod_eq_of_lt (by omega) (by rw [← h0]; exact_mod_cast h)]
  simp

/-- **C54, in part.** If the trait is true for a pair of plain types with a cast, the cast keeps the bytes of every value.
Missing: the pairs that are not plain, for which this is false (`C54_exact`), and those without a cast. -/
theorem C54_noop_partial (a b : QTy) (h : isNoopConvertible w a b = true) (hp : Plain w a.ty b.ty)
    (hc : castable a.ty b.ty = true) (n : Nat) (hn : Valid w a.ty n) : castBytes w a.ty b.ty n = some n := by
  obtain ⟨_, a⟩ := a
  obtain ⟨_, b⟩ := b
  simp only [isNoopConvertible, removeCv, Bool.and_eq_true, beq_iff_eq] at h
  obtain ⟨⟨⟨⟨hsz, ha⟩, hb⟩, hf⟩, hbool⟩ := h
  obtain ⟨hp1, hp2, hp3, hp4, hp5⟩ := hp
  dsimp only at hp1 hp2 hp3 hp4 hp5 hn hc ⊢
  replace hp1 : under b = some .bool → under a = some .bool ∨ a = .null := by
    intro e
    cases b with
    | integral i =>
      have : i = .bool := by simpa [under] using e
      subst this
      have : a = .integral .bool := by
        simp only [if_true] at hbool
        exact of_decide_eq_true hbool
      simp [this, under]
    | enm k i =>
      have : i = .bool := by simpa [under] using e
      exact hp1 k (by rw [this])
    | _ => simp [under] at e
  have int_ptr : ∀ i : ITy, i.bytes = w.pbytes → i.Valid n → ((i.read n) % 256 ^ w.pbytes).toNat = n := by
    intro i hi hv
    cases i with
    | bool =>
      simp only [ITy.bytes] at hi
      simp only [ITy.Valid] at hv
      rw [← hi]
      simp only [ITy.read]
      omega
    | int m s =>
      simp only [ITy.bytes] at hi
      rw [← hi]
      exact wrap_read _ _ _ hv
  have ptr_int : ∀ j : ITy, w.pbytes = j.bytes → j ≠ .bool → n < 256 ^ w.pbytes → j.write (j.convert n) = n := by
    intro j hj hne hv
    cases j with
    | bool => exact absurd rfl hne
    | int m s =>
      rw [write_convert]
      simp only [ITy.bytes] at hj
      rw [← hj]
      exact addr_noop _ _ hv
  have null_int : ∀ j : ITy, j.write (j.convert 0) = 0 := by
    intro j
    cases j with
    | bool => rfl
    | int m s => rw [write_convert]; simp
  cases a with
  | cls c => simp [isScalar] at ha
  | flt f =>
    cases b with
    | flt g => simp [castBytes, read, convert, write, hp3 f g rfl rfl]
    | _ => simp [isFloating] at hf
  | integral i =>
    cases b with
    | cls c => simp [isScalar] at hb
    | flt f => simp [isFloating] at hf
    | integral j => simp [castBytes, read, convert, write, integral_noop hsz (fun e => by simpa [under] using hp1 (by simp [under, e])) hn]
    | enm k j => simp [castBytes, read, convert, write, integral_noop hsz (fun e => by simpa [under] using hp1 (by simp [under, e])) hn]
    | ptr c => simp [castBytes, read, convert, write, int_ptr i hsz hn]
    | _ => simp [castable] at hc
  | enm k i =>
    cases b with
    | cls c => simp [isScalar] at hb
    | flt f => simp [isFloating] at hf
    | integral j => simp [castBytes, read, convert, write, integral_noop hsz (fun e => by simpa [under] using hp1 (by simp [under, e])) hn]
    | enm k j => simp [castBytes, read, convert, write, integral_noop hsz (fun e => by simpa [under] using hp1 (by simp [under, e])) hn]
    | ptr c => simp [castBytes, read, convert, write, int_ptr i hsz hn]
    | _ => simp [castable] at hc
  | ptr c =>
    cases b with
    | cls c => simp [isScalar] at hb
    | flt f => simp [isFloating] at hf
    | integral j =>
      have : j ≠ .bool := fun e => by simpa [under] using hp1 (by simp [under, e])
      simp [castBytes, read, convert, write, ptr_int j hsz this hn]
    | enm k j =>
      have : j ≠ .bool := fun e => by simpa [under] using hp1 (by simp [under, e])
      simp [castBytes, read, convert, write, ptr_int j hsz this hn]
    | ptr d =>
      have := hp2 c d rfl rfl
      by_cases h0 : n = 0
      · simp [castBytes, read, convert, write, h0]
      · simp only [castBytes, read, convert, write, h0, Option.bind_eq_bind, Option.bind_some, if_false, Option.some.injEq]
        rw [Nat.add_mod, this, Nat.add_zero, Nat.mod_mod, Nat.mod_eq_of_lt hn]
    | _ => simp [castable] at hc
  | null =>
    simp only [Valid] at hn
    subst hn
    cases b with
    | cls c => simp [isScalar] at hb
    | flt f => simp [isFloating] at hf
    | integral j => simp [castBytes, read, convert, write, null_int]
    | enm k j => simp [castBytes, read, convert, write, null_int]
    | ptr d => simp [castBytes, read, convert, write]
    | null => simp [castBytes, read, convert, write]
    | mem k d => simp [castBytes, read, convert, write, hp4 k d rfl rfl]
  | mem k c =>
    cases b with
    | mem l d =>
      have : k = l := by simpa [castable] using hc
      subst this
      simp [castBytes, read, convert, write, hp5 k c d rfl rfl n hn]
    | integral i =>
      cases i with
      | bool => simpa [under] using hp1 rfl
      | int _ _ => simp [castable] at hc
    | _ => simp [castable] at hc

/-- **C54, where it fails.** The target is an enumeration with the underlying type `bool`, the source a one byte integer: the
trait is true, and every value but 0 and 1 changes. The test on `bool` (`int8 → bool` is not a noop) misses these. -/
theorem C54_bool_enum_defect (k : Nat) (s : Bool) (cv cv' : Bool) (n : Nat) (hn : n < 256) (h2 : 2 ≤ n) :
    isNoopConvertible w ⟨cv, .integral (.int 1 s)⟩ ⟨cv', .enm k .bool⟩ = true ∧
    castBytes w (.integral (.int 1 s)) (.enm k .bool) n = some 1 := by
  refine ⟨by simp [isNoopConvertible, removeCv, size, ITy.bytes, isScalar, isFloating], ?_⟩
  have : (ITy.int 1 s).read n ≠ 0 := by
    simp only [ITy.read]
    split_ifs <;> omega
  simp [castBytes, read, convert, write, ITy.convert, this, ITy.write]

/-- **C54, where it fails.** Pointers to a class and to a base of it at another address: the trait is true, and the cast moves
every address but null. -/
theorem C54_base_pointer_defect (c d : Nat) (cv cv' : Bool) (ho : w.offset c d % 256 ^ w.pbytes ≠ 0) (n : Nat)
    (hn : n < 256 ^ w.pbytes) (h0 : n ≠ 0) :
    isNoopConvertible w ⟨cv, .ptr c⟩ ⟨cv', .ptr d⟩ = true ∧ ∃ m, castBytes w (.ptr c) (.ptr d) n = some m ∧ m ≠ n := by
  refine ⟨by simp [isNoopConvertible, removeCv, size, isScalar, isFloating], (n + w.offset c d) % 256 ^ w.pbytes, ?_, ?_⟩
  · simp [castBytes, read, convert, write, h0]
  · intro e
    apply ho
    have h1 : (n + w.offset c d) % 256 ^ w.pbytes = (n + 0) % 256 ^ w.pbytes := by rw [e, Nat.add_zero, Nat.mod_eq_of_lt hn]
    have h2 := Nat.ModEq.add_left_cancel' (n := 256 ^ w.pbytes) n h1
    rw [Nat.ModEq, Nat.zero_mod] at h2
    exact h2

/-- **C54, where it fails.** Floating point types of the same size and different formats (`std::float16_t` and
`std::bfloat16_t`): the trait is true, and bytes for which the formats disagree change. -/
theorem C54_float_format_defect (f g : Nat) (cv cv' : Bool) (hsz : w.fbytes f = w.fbytes g) (n : Nat)
    (hd : w.fwrite g (w.fread f n) ≠ n) :
    isNoopConvertible w ⟨cv, .flt f⟩ ⟨cv', .flt g⟩ = true ∧ ∃ m, castBytes w (.flt f) (.flt g) n = some m ∧ m ≠ n :=
  ⟨by simp [isNoopConvertible, removeCv, size, isScalar, isFloating, hsz], _, by simp [castBytes, read, convert, write], hd⟩

/-- **C54, where it fails.** `std::nullptr_t` and pointers to members whose null is not zeros (pointers to data members, whose
null is all ones): the trait is true, and the cast changes the bytes. -/
theorem C54_null_member_defect (k d : Nat) (cv cv' : Bool) (hsz : w.pbytes = w.mbytes k) (h0 : w.mnull k ≠ 0) :
    isNoopConvertible w ⟨cv, .null⟩ ⟨cv', .mem k d⟩ = true ∧ ∃ m, castBytes w .null (.mem k d) 0 = some m ∧ m ≠ 0 :=
  ⟨by simp [isNoopConvertible, removeCv, size, isScalar, isFloating, hsz], _, by simp [castBytes, read, convert, write], h0⟩

/-- **C54, where it fails.** Pointers to members of a class and of another one in which the members lie elsewhere: the trait
is true, and the cast changes the bytes. -/
theorem C54_member_class_defect (k c d : Nat) (cv cv' : Bool) (n : Nat) (hd : w.mcast k c d n ≠ n) :
    isNoopConvertible w ⟨cv, .mem k c⟩ ⟨cv', .mem k d⟩ = true ∧ ∃ m, castBytes w (.mem k c) (.mem k d) n = some m ∧ m ≠ n :=
  ⟨by simp [isNoopConvertible, removeCv, size, isScalar, isFloating], _, by simp [castBytes, read, convert, write], hd⟩

/-- **C54, where it fails.** The trait is true for all scalar types of the same size, other than floating point types, that
cannot be cast to each other at all: an integer and a pointer to a member, a pointer and a pointer to a member, anything and
`std::nullptr_t`. -/
theorem C54_no_cast_defect (a b : Ty) (cv cv' : Bool) (hsz : size w a = size w b) (ha : isScalar a = true)
    (hb : isScalar b = true) (hf : isFloating a = isFloating b) (hc : castable a b = false) :
    isNoopConvertible w ⟨cv, a⟩ ⟨cv', b⟩ = true ∧ ∀ n, castBytes w a b n = none := by
  constructor
  · simp only [isNoopConvertible, removeCv, hsz, ha, hb, hf, beq_self_eq_true, Bool.true_and]
    split_ifs with e
    · subst e
      cases a <;> simp_all [castable, isScalar, isFloating]
    · simp [e]
  · intro n
    have := castable_iff w a b n
    rw [hc] at this
    cases h : castBytes w a b n with
    | none => rfl
    | some m => simp [h] at this

/-- **C54.** For types with a cast for which the trait is true, the cast keeps the bytes of all values if and only if the pair
is plain: nothing else can go wrong. -/
theorem C54_exact (a b : QTy) (h : isNoopConvertible w a b = true) (hc : castable a.ty b.ty = true) :
    (∀ n, Valid w a.ty n → castBytes w a.ty b.ty n = some n) ↔ Plain w a.ty b.ty := by
  refine ⟨fun hk => ?_, fun hp n hn => C54_noop_partial w a b h hp hc n hn⟩
  obtain ⟨_, a⟩ := a
  obtain ⟨_, b⟩ := b
  simp only [isNoopConvertible, removeCv, Bool.and_eq_true, beq_iff_eq] at h
  obtain ⟨⟨⟨⟨hsz, ha⟩, hb⟩, hf⟩, hbool⟩ := h
  dsimp only at hk hc ⊢
  have two : ∀ (i : ITy), i.bytes = 1 → i ≠ .bool → i.Valid 2 ∧ i.read 2 ≠ 0 := by
    intro i hi hne
    cases i with
    | bool => exact absurd rfl hne
    | int m s =>
      simp only [ITy.bytes] at hi
      subst hi
      simp [ITy.Valid, ITy.read]
  refine ⟨?_, ?_, ?_, ?_, ?_⟩
  · intro k hb'
    subst hb'
    cases a with
    | cls c => simp [isScalar] at ha
    | flt f => simp [isFloating] at hf
    | null => exact .inr rfl
    | mem l c => simp [castable] at hc
    | ptr c =>
      exfalso
      simp only [size, ITy.bytes] at hsz
      have := hk 2 (by simp [Valid, hsz])
      simp [castBytes, read, convert, write, ITy.convert, ITy.write] at this
    | integral i =>
      refine .inl (Classical.byContradiction fun e => ?_)
      have e' : i ≠ .bool := fun e' => e (by simp [under, e'])
      obtain ⟨h1, h2⟩ := two i (by simpa [size, ITy.bytes] using hsz) e'
      have := hk 2 h1
      simp [castBytes, read, convert, write, ITy.convert, ITy.write, h2] at this
    | enm l i =>
      refine .inl (Classical.byContradiction fun e => ?_)
      have e' : i ≠ .bool := fun e' => e (by simp [under, e'])
      obtain ⟨h1, h2⟩ := two i (by simpa [size, ITy.bytes] using hsz) e'
      have := hk 2 h1
      simp [castBytes, read, convert, write, ITy.convert, ITy.write, h2] at this
  · intro c d ea eb
    subst ea eb
    by_cases h0 : w.pbytes = 0
    · simp [h0, Nat.mod_one]
    · have h1 : 1 < 256 ^ w.pbytes := Nat.one_lt_pow h0 (by omega)
      have := hk 1 h1
      simp only [castBytes, read, convert, write, Option.bind_eq_bind, Option.bind_some, Option.some.injEq,
        Nat.one_ne_zero, if_false] at this
      have h2 : (1 + w.offset c d) % 256 ^ w.pbytes = (1 + 0) % 256 ^ w.pbytes := by
        rw [this, Nat.add_zero, Nat.mod_eq_of_lt h1]
      have h3 := Nat.ModEq.add_left_cancel' (n := 256 ^ w.pbytes) 1 h2
      rwa [Nat.ModEq, Nat.zero_mod] at h3
  · intro f g ea eb n
    subst ea eb
    simpa [castBytes, read, convert, write] using hk n trivial
  · intro k d ea eb
    subst ea eb
    simpa [castBytes, read, convert, write] using hk 0 rfl
  · intro k c d ea eb n hn
    subst ea eb
    simpa [castBytes, read, convert, write] using hk n hn

/-- **C54.** For integers and `bool` the trait is exact: it is true if and only if the cast keeps the bytes of all values and
the types have the same size. -/
theorem C54_integral_exact (i j : ITy) (cv cv' : Bool) :
    isNoopConvertible w ⟨cv, .integral i⟩ ⟨cv', .integral j⟩ = true ↔
      i.bytes = j.bytes ∧ ∀ n, i.Valid n → castBytes w (.integral i) (.integral j) n = some n := by
  constructor
  · intro h
    have h1 := h
    simp only [isNoopConvertible, removeCv, Bool.and_eq_true, beq_iff_eq, size] at h1
    refine ⟨h1.1.1.1.1, fun n hn => C54_noop_partial w _ _ h ⟨?_, ?_, ?_, ?_, ?_⟩ rfl n hn⟩
    · intro k hk; cases hk
    · intro c d hc; cases hc
    · intro f g hf; cases hf
    · intro k d hk; cases hk
    · intro k c d hk; cases hk
  · rintro ⟨h1, h2⟩
    simp only [isNoopConvertible, removeCv, size, h1, isScalar, isFloating, beq_self_eq_true, Bool.and_self, Bool.true_and]
    cases j with
    | int b s => simp
    | bool =>
      cases i with
      | bool => simp
      | int b s =>
        exfalso
        simp only [ITy.bytes] at h1
        subst h1
        have := h2 2 (by simp [ITy.Valid])
        revert this
        cases s <;> simp [castBytes, read, convert, write, ITy.convert, ITy.write, ITy.read]

/-! ### A concrete platform: pointers have 8 bytes, format 0 is the bytes themselves and format 1 the same with the lowest
bit flipped, class 0 has a base 1 at the offset 16; pointers to data members (kind 0) are offsets, the null one all ones,
pointers to member functions (kind 1) have 16 bytes -/

def flip (n : Nat) : Nat := if n % 2 = 0 then n + 1 else n - 1

theorem flip_flip (n : Nat) : flip (flip n) = n := by
  simp only [flip]; split_ifs <;> omega

def platform : World Nat where
  fbytes _ := 2
  fread f n := if f = 0 then n else flip n
  fwrite f x := if f = 0 then x else flip x
  fsame f n := by by_cases h : f = 0 <;> simp [h, flip_flip]
  pbytes := 8
  cbytes _ := 24
  offset c d := if c = 0 ∧ d = 1 then 16 else 0
  osame c := by simp only [ite_eq_right_iff, and_imp]; intro h1 h2; omega
  mbytes k := if k = 0 then 8 else 16
  mnull k := if k = 0 then 256 ^ 8 - 1 else 0
  mcast k c d n := if k = 0 ∧ c = 1 ∧ d = 0 ∧ n ≠ 256 ^ 8 - 1 then (n + 16) % 256 ^ 8 else n
  msame k c n := by simp only [ite_eq_right_iff, and_imp]; intro h1 h2 h3; omega

example : isNoopConvertible platform ⟨false, .enm 3 (.int 4 true)⟩ ⟨true, .integral (.int 4 false)⟩ = true ∧
    Plain platform (.enm 3 (.int 4 true)) (.integral (.int 4 false)) := ⟨rfl, by simp [Plain, under]⟩
example : isNoopConvertible platform ⟨false, .ptr 5⟩ ⟨true, .integral (.int 8 false)⟩ = true ∧
    Plain platform (.ptr 5) (.integral (.int 8 false)) := ⟨rfl, by simp [Plain, under]⟩
example : castable (.enm 3 (.int 4 true)) (.integral (.int 4 false)) = true ∧ castable (.ptr 5) (.integral (.int 8 false)) = true :=
  ⟨rfl, rfl⟩
example : isNoopConvertible platform ⟨false, .mem 1 0⟩ ⟨true, .mem 1 1⟩ = true ∧ Plain platform (.mem 1 0) (.mem 1 1) ∧
    castable (.mem 1 0) (.mem 1 1) = true := ⟨rfl, by simp [Plain, platform]; omega, rfl⟩
example : platform.pbytes = platform.mbytes 0 ∧ platform.mnull 0 ≠ 0 := by simp [platform]
example : platform.mcast 0 1 0 8 ≠ 8 := by simp [platform]
example : size platform (.ptr 4) = size platform (.mem 0 3) ∧ castable (.ptr 4) (.mem 0 3) = false ∧
    size platform (.integral (.int 8 true)) = size platform .null ∧ castable (.integral (.int 8 true)) .null = false :=
  ⟨rfl, rfl, rfl, rfl⟩
example : platform.offset 0 1 % 256 ^ platform.pbytes ≠ 0 := by simp [platform]
example : platform.fbytes 0 = platform.fbytes 1 ∧ platform.fwrite 1 (platform.fread 0 6) ≠ 6 := by simp [platform, flip]

end Itlib.TypeTraits
