/-!
# Specification of `redirect_rstream` in scopes, with exceptions

Programs that read from a stream through redirects that are local variables. Streams may be set to throw
(`std::ios::exceptions`), programs may throw themselves and catch. A redirect is a bracket: its scope is run from another
position, and however the scope is left, the stream is then where it was before.

Written without reference to the model.
-/
namespace Itlib.RStream.Scope

/-- What a user's `operator>>` (or one of the standard's) makes of the characters before it: how many it takes, and whether it
reaches the end or fails. -/
abbrev Extractor (C : Type) := List C → Nat × Bool × Bool

/-- Programs. -/
inductive Prog (C : Type) where
  | skip
  /-- `s.read(buf, n)` -/
  | read (n : Nat)
  /-- `s >> x` -/
  | extract (f : Extractor C)
  /-- `{ redirect_rstream r(in, p); … }` -/
  | redirect (p : Nat) (body : Prog C)
  | seq (a b : Prog C)
  /-- `try { … } catch (...) { … }` -/
  | attempt (a b : Prog C)
  /-- `throw` -/
  | raise
  /-- `in.clear()` -/
  | clear

/-- A stream over a text: position, state bits, the bits that make it throw, and what has been read so far. -/
structure Stream (C : Type) where
  text : List C
  pos : Nat
  eof : Bool
  fail : Bool
  throwEof : Bool
  throwFail : Bool
  log : List (List C)

variable {C : Type}

/-- How a part of a program ends. -/
inductive End where
  | normal
  | exception
deriving DecidableEq

/-- The state bits of the stream are such that it throws. -/
def Stream.angry (w : Stream C) : Bool := (w.eof && w.throwEof) || (w.fail && w.throwFail)

/-- the stream after bits were set, and whether it throws -/
def settle (w : Stream C) : End × Stream C := (if w.angry then .exception else .normal, w)

/-- Input of `k` characters that ends with these bits; on a stream that is not good there is none, and it fails. -/
def input (w : Stream C) (k : Nat) (e f : Bool) : End × Stream C :=
  if w.eof || w.fail then settle { w with fail := true }
  else settle { w with
    pos := w.pos + (w.text.drop w.pos |>.take k).length, eof := e, fail := f, log := w.log ++ [(w.text.drop w.pos).take k] }

/-- What a program does; `none`: nothing is promised. For redirects there is a promise if the stream is good in the beginning,
the position exists, and the stream has not failed at the end of the scope. -/
def run : Prog C → Stream C → Option (End × Stream C)
  | .skip, w => some (.normal, w)
  | .read n, w =>
    let short := decide ((w.text.drop w.pos).length < n)
    some (input w n short short)
  | .extract f, w => some (input w (f (w.text.drop w.pos)).1 (f (w.text.drop w.pos)).2.1 (f (w.text.drop w.pos)).2.2)
  | .redirect p body, w =>
    if w.eof || w.fail || decide (w.text.length < p) then none
    else
      match run body { w with pos := p } with
      | none => none
      | some (e, w') => if w'.fail then none else some (e, { w' with pos := w.pos, eof := false })
  | .seq a b, w =>
    match run a w with
    | some (.normal, w') => run b w'
    | r => r
  | .attempt a b, w =>
    match run a w with
    | some (.exception, w') => run b w'
    | r => r
  | .raise, w => some (.exception, w)
  | .clear, w => some (.normal, { w with eof := false, fail := false })

end Itlib.RStream.Scope
