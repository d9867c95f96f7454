import Verif.Core.Outcome

/-! # Machine arithmetic of 64-bit addresses and sizes -/
namespace Itlib.View

/-- 2^64 -/
local notation "W" => 18446744073709551616

/-- `a + b` of unsigned 64-bit numbers, or of an address and a number of bytes -/
def wadd (a b : Nat) : Nat := (a + b) % W
/-- `a - b` -/
def wsub (a b : Nat) : Nat := (a + (W - b % W)) % W
/-- `a * b` -/
def wmul (a b : Nat) : Nat := (a * b) % W

/-- an unsigned 64-bit number taken as signed -/
def toSigned (n : Nat) : Int := if n < 9223372036854775808 then n else (n : Int) - W
/-- a signed number taken as unsigned -/
def ofInt (i : Int) : Nat := (i % W).toNat

theorem wadd_of_lt {a b : Nat} (h : a + b < W) : wadd a b = a + b := Nat.mod_eq_of_lt h
theorem wmul_of_lt {a b : Nat} (h : a * b < W) : wmul a b = a * b := Nat.mod_eq_of_lt h
theorem wsub_of_le {a b : Nat} (h : b ≤ a) (ha : a < W) : wsub a b = a - b := by
  unfold wsub; omega
theorem wsub_of_lt {a b : Nat} (h : a < b) (hb : b < W) : wsub a b = a + W - b := by
  unfold wsub; omega
theorem wadd_wmul {a n m : Nat} : wadd a (wmul n m) = (a + n * m) % W := by
  simp [wadd, wmul]
theorem wmul_mod_right {n m : Nat} : wmul n (m % W) = wmul n m := by simp [wmul, Nat.mul_mod]

theorem toSigned_of_lt {n : Nat} (h : n < 9223372036854775808) : toSigned n = n := by simp [toSigned, h]
theorem ofInt_of_nonneg {n : Nat} (h : n < W) : ofInt (n : Int) = n := by unfold ofInt; omega
theorem ofInt_of_neg {n : Nat} (h0 : 0 < n) (h : n ≤ W) : ofInt (-(n : Int)) = W - n := by unfold ofInt; omega

end Itlib.View
