import Verif.Core.Outcome

/-!
# Model of `include/itlib/strutil.hpp`

Memory is a partial function from addresses to characters (numbers, ordered as `std::char_traits<char>` orders them); reading
an address without a character is undefined behaviour. A `std::string_view` is an address and a length; the functions of
`std::string_view` used by the code are modelled after the standard's definitions. Addresses do not wrap around (a view
does not leave the address space). `while` loops get a bound on the number of rounds; running out of it counts as
undefined behaviour, and the theorems give a bound that suffices.
-/
namespace Itlib.StrUtil
open Itlib

/-- characters at addresses -/
abbrev Mem := Nat → Option Nat

abbrev Str := M Mem

/-- `std::string_view` -/
structure SV where
  ptr : Nat
  len : Nat
  deriving DecidableEq

/-- reading a character -/
def rd (p : Nat) : Str Nat := M.load fun m => m p

/-- `std::char_traits<char>::compare` -/
def traitsCompare : Nat → Nat → Nat → Str Int
  | 0, _, _ => pure 0
  | n + 1, p, q => do
    let a ← rd p
    let b ← rd q
    if a < b then pure (-1)
    else if b < a then pure 1
    else traitsCompare n (p + 1) (q + 1)

/-- `string_view::substr` -/
def substr (s : SV) (pos n : Nat) : Str SV :=
  if s.len < pos then .raise .outOfRange else pure ⟨s.ptr + pos, min n (s.len - pos)⟩

/-- `string_view::compare(v)` -/
def compare (s v : SV) : Str Int := do
  let c ← traitsCompare (min s.len v.len) s.ptr v.ptr
  if c ≠ 0 then pure c
  else if s.len < v.len then pure (-1)
  else if v.len < s.len then pure 1
  else pure 0

/-- `string_view::compare(pos, n, v)` -/
def compareSub (s : SV) (pos n : Nat) (v : SV) : Str Int := do
  let t ← substr s pos n
  compare t v

/-- `string_view::remove_prefix` -/
def removePrefix (s : SV) (n : Nat) : Str SV := if s.len < n then .undef else pure ⟨s.ptr + n, s.len - n⟩

/-- `string_view::remove_suffix` -/
def removeSuffix (s : SV) (n : Nat) : Str SV := if s.len < n then .undef else pure ⟨s.ptr, s.len - n⟩

/-- `make_string_view` from iterators (strutil.hpp 71-76): `&*begin` reads nothing, but is undefined if there is nothing -/
def makeStringView (b e : Nat) : Str SV :=
  if b = e then pure ⟨0, 0⟩
  else do
    let _ ← rd b
    pure ⟨b, e - b⟩

/-- `make_string_view` from pointers (strutil.hpp 79-82) -/
def makeStringViewPtr (b e : Nat) : Str SV := pure ⟨b, e - b⟩

/-- `starts_with` (strutil.hpp 84-87) -/
def startsWith (str pre : SV) : Str Bool :=
  if str.len < pre.len then pure false
  else do
    let c ← compareSub str 0 pre.len pre
    pure (0 == c)

/-- `ends_with` (strutil.hpp 89-92) -/
def endsWith (str suf : SV) : Str Bool :=
  if str.len < suf.len then pure false
  else do
    let c ← compareSub str (str.len - suf.len) suf.len suf
    pure (0 == c)

/-- the loop of `remove_prefix_all` (strutil.hpp 97), at most `fuel` rounds -/
def prefixLoop (pre : SV) : Nat → SV → Str SV
  | fuel, str => do
    let b ← startsWith str pre
    if b then
      match fuel with
      | 0 => .undef
      | fuel + 1 => do
        let s ← removePrefix str pre.len
        prefixLoop pre fuel s
    else pure str

/-- `remove_prefix_all` (strutil.hpp 94-99) -/
def removePrefixAll (fuel : Nat) (str pre : SV) : Str SV :=
  if pre.len = 0 then pure str else prefixLoop pre fuel str

/-- the loop of `remove_suffix_all` (strutil.hpp 104) -/
def suffixLoop (suf : SV) : Nat → SV → Str SV
  | fuel, str => do
    let b ← endsWith str suf
    if b then
      match fuel with
      | 0 => .undef
      | fuel + 1 => do
        let s ← removeSuffix str suf.len
        suffixLoop suf fuel s
    else pure str

/-- `remove_suffix_all` (strutil.hpp 101-106) -/
def removeSuffixAll (fuel : Nat) (str suf : SV) : Str SV :=
  if suf.len = 0 then pure str else suffixLoop suf fuel str

end Itlib.StrUtil
