/-!
# Specification for `is_noop_convertible`: what conversions between scalar types do

Objects are numbers: their bytes, read in little endian order. `read` is the value that bytes represent, `write` the bytes
of a value, `convert` what a cast does.
-/
namespace Itlib.TypeTraits

/-- integral types: `bool`, and the types with some number of bits -/
inductive ITy where
  | bool
  | int (bytes : Nat) (signed : Bool)
deriving DecidableEq

/-- Types. Floating point types have a format; pointers point to objects of some class; enumerations have a name and an
underlying type; pointers to members are of some kind (to data, or to functions) and of some class; `null` is
`std::nullptr_t`. -/
inductive Ty where
  | integral (i : ITy)
  | enm (name : Nat) (u : ITy)
  | flt (fmt : Nat)
  | ptr (cls : Nat)
  | null
  | mem (kind : Nat) (cls : Nat)
  | cls (name : Nat)
deriving DecidableEq

/-- a type with or without `const`/`volatile` -/
structure QTy where
  cv : Bool
  ty : Ty

/-- The platform, and the classes of the program. `F` are the values of floating point types. -/
structure World (F : Type) where
  fbytes : Nat → Nat
  fread : Nat → Nat → F
  fwrite : Nat → F → Nat
  /-- writing what was read gives the same bytes -/
  fsame : ∀ f n, fwrite f (fread f n) = n
  pbytes : Nat
  cbytes : Nat → Nat
  /-- the offset by which a cast between pointers to classes moves addresses; none if it is the same class -/
  offset : Nat → Nat → Nat
  osame : ∀ c, offset c c = 0
  /-- the size of pointers to members, the bytes of the null one, and what a cast to a pointer to a member of another class
  does to the bytes -/
  mbytes : Nat → Nat
  mnull : Nat → Nat
  mcast : Nat → Nat → Nat → Nat → Nat
  msame : ∀ k c n, mcast k c c n = n

/-- values -/
inductive Val (F : Type) where
  | int (v : Int)
  | flt (x : F)
  | addr (a : Nat)
  | null
  | mem (n : Nat)

variable {F : Type} (w : World F)

/-- `sizeof` -/
def ITy.bytes : ITy → Nat
  | .bool => 1
  | .int n _ => n

def size : Ty → Nat
  | .integral i | .enm _ i => i.bytes
  | .flt f => w.fbytes f
  | .ptr _ | .null => w.pbytes
  | .mem k _ => w.mbytes k
  | .cls c => w.cbytes c

/-- bytes that represent a value -/
def ITy.Valid (i : ITy) (n : Nat) : Prop := match i with
  | .bool => n ≤ 1
  | .int b _ => n < 256 ^ b

/-- `std::nullptr_t` has one value, which implementations store as zeros -/
def Valid : Ty → Nat → Prop
  | .integral i, n | .enm _ i, n => i.Valid n
  | .flt _, _ => True
  | .ptr _, n => n < 256 ^ w.pbytes
  | .null, n => n = 0
  | .mem k _, n => n < 256 ^ w.mbytes k
  | .cls _, _ => True

/-- the value of an integral object: two's complement -/
def ITy.read : ITy → Nat → Int
  | .bool, n => n
  | .int b signed, n => if signed = true ∧ 256 ^ b ≤ 2 * n then (n : Int) - 256 ^ b else n

/-- the bytes of an integral value -/
def ITy.write : ITy → Int → Nat
  | .bool, v => v.toNat
  | .int b _, v => (v % 256 ^ b).toNat

/-- integral conversion: `bool` is whether the value is not zero, other types are modulo a power of two -/
def ITy.convert : ITy → Int → Int
  | .bool, v => if v = 0 then 0 else 1
  | .int b signed, v =>
    let r := v % 256 ^ b
    if signed = true ∧ 256 ^ b ≤ 2 * r then r - 256 ^ b else r

/-- the value of an object; objects of class types are not considered -/
def read : Ty → Nat → Option (Val F)
  | .integral i, n | .enm _ i, n => some (.int (i.read n))
  | .flt f, n => some (.flt (w.fread f n))
  | .ptr _, n => some (.addr n)
  | .null, _ => some .null
  | .mem _ _, n => some (.mem n)
  | .cls _, _ => none

/-- the bytes of a value, if it is one of the type -/
def write : Ty → Val F → Option Nat
  | .integral i, .int v | .enm _ i, .int v => some (i.write v)
  | .flt f, .flt x => some (w.fwrite f x)
  | .ptr _, .addr a => some a
  | .null, .null => some 0
  | .mem _ _, .mem n => some n
  | _, _ => none

/-- What a cast does (`static_cast`, or `reinterpret_cast` between pointers and integers). Conversions between integers and
floating point types are left out: `none`. The null pointer is not moved. A null pointer constant becomes the null pointer of
every kind; pointers to members are cast to such of the same kind and to `bool`. There are no other casts. -/
def convert : Ty → Ty → Val F → Option (Val F)
  | .integral _, .integral j, .int v | .integral _, .enm _ j, .int v | .enm _ _, .integral j, .int v
  | .enm _ _, .enm _ j, .int v => some (.int (j.convert v))
  | .flt _, .flt _, .flt x => some (.flt x)
  | .ptr c, .ptr d, .addr a => some (.addr (if a = 0 then 0 else (a + w.offset c d) % 256 ^ w.pbytes))
  | .ptr _, .integral j, .addr a | .ptr _, .enm _ j, .addr a => some (.int (j.convert a))
  | .integral _, .ptr _, .int v | .enm _ _, .ptr _, .int v => some (.addr (v % 256 ^ w.pbytes).toNat)
  | .null, .null, .null => some .null
  | .null, .ptr _, .null => some (.addr 0)
  | .null, .mem k _, .null => some (.mem (w.mnull k))
  | .null, .integral j, .null | .null, .enm _ j, .null => some (.int (j.convert 0))
  | .mem k c, .mem l d, .mem n => if k = l then some (.mem (w.mcast k c d n)) else none
  | .mem k _, .integral .bool, .mem n => some (.int (if n = w.mnull k then 0 else 1))
  | _, _, _ => none

/-- Types between which there is a cast. -/
def castable : Ty → Ty → Bool
  | .integral _, b | .enm _ _, b | .ptr _, b => match b with
    | .integral _ | .enm _ _ | .ptr _ => true
    | _ => false
  | .flt _, b => match b with
    | .flt _ => true
    | _ => false
  | .null, b => match b with
    | .flt _ | .cls _ => false
    | _ => true
  | .mem k _, b => match b with
    | .mem l _ => k = l
    | .integral .bool => true
    | _ => false
  | .cls _, _ => false

/-- The cast from one type to the other, on bytes. -/
def castBytes (a b : Ty) (n : Nat) : Option Nat := do
  let v ← read w a n
  let v ← convert w a b v
  write w b v

end Itlib.TypeTraits
