import Verif.StrUtil.Model

/-!
# The model of `strutil.hpp` against the unit tests of the library

Tests of the model, not proofs: the calls of `test/t-strutil-17.cpp`. The strings of a call are in memory at 1000 and 2000.
-/
namespace Itlib.Conformance.StrUtil
open Itlib Itlib.StrUtil

/-- a text at 1000 and one at 2000, nothing else -/
def mem (s t : String) : Mem := fun p =>
  if 2000 ≤ p then (t.toList[p - 2000]?).map Char.toNat else if 1000 ≤ p then (s.toList[p - 1000]?).map Char.toNat else none

def result {α : Type} (f : Str α) (m : Mem) : Option α := match f m with
  | .ok r _ => some r
  | _ => none

/-- call with two texts -/
def on {α : Type} (f : SV → SV → Str α) (s t : String) : Option α := result (f ⟨1000, s.length⟩ ⟨2000, t.length⟩) (mem s t)

/-- the characters of a view -/
def shown (m : Mem) (v : SV) : List (Option Char) := (List.range v.len).map fun k => (m (v.ptr + k)).map Char.ofNat

/-- the function returns a view with this text -/
def view (f : SV → SV → Str SV) (s t r : String) : Bool := (on f s t).map (shown (mem s t)) == some (r.toList.map some)

/-- "make_string_view": t-strutil-17.cpp:14-28; the two first calls with pointers, the others with iterators, which are addresses too -/
example : let m := mem "0123456789" ""
    let t (f : Str SV) (r : String) := (result f m).map (shown m) = some (r.toList.map some)
    t (makeStringViewPtr 1000 1003) "012" ∧ t (makeStringViewPtr 1002 1008) "234567" ∧ t (makeStringView 1003 1006) "345" ∧
    t (makeStringView 1003 1003) "" ∧ t (makeStringView 1006 1006) "" ∧ t (makeStringViewPtr 1003 1006) "345" ∧
    t (makeStringViewPtr 1003 1003) "" ∧ t (makeStringViewPtr 1006 1006) "" := by
  decide +kernel

/-- "starts/ends_with": t-strutil-17.cpp:33-50 -/
example : (["", "s", "start", "start_123_end"].all fun t => on startsWith "start_123_end" t == some true) = true ∧
    (["tart", "t", "start_123_enz", "start_123_endd"].all fun t => on startsWith "start_123_end" t == some false) = true ∧
    (["", "d", "end", "start_123_end"].all fun t => on endsWith "start_123_end" t == some true) = true ∧
    (["en", "start_123_endz", "start_123_enddd", "atart_123_end"].all fun t => on endsWith "start_123_end" t == some false) = true := by
  decide +kernel

/-- "remove_prefix/suffix_all": t-strutil-17.cpp:55-67 -/
example : view (removePrefixAll 20) "stst_endend" "st" "_endend" = true ∧ view (removeSuffixAll 20) "stst_endend" "end" "stst_" = true ∧
    view (removePrefixAll 20) "stst_endend" "zz" "stst_endend" = true ∧ view (removeSuffixAll 20) "stst_endend" "zz" "stst_endend" = true ∧
    view (removePrefixAll 20) "stst_endend" "" "stst_endend" = true ∧ view (removeSuffixAll 20) "stst_endend" "" "stst_endend" = true ∧
    view (removePrefixAll 20) "aaa" "a" "" = true ∧ view (removeSuffixAll 20) "aaa" "a" "" = true ∧
    view (removePrefixAll 20) "aaa" "aa" "a" = true ∧ view (removeSuffixAll 20) "aaa" "aa" "a" = true := by
  decide +kernel

end Itlib.Conformance.StrUtil
