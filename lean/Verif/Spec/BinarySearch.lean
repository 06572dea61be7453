import Verif.Model.BinarySearch
import Mathlib.Data.Rat.Defs
import Mathlib.Algebra.Order.Field.Rat
import Mathlib.Algebra.Order.Field.Power
/-
Independent specification for the binary searches: IEEE-754 binary32 decoding,
float comparison, monotone predicates and "largest False point".
-/
namespace Verif.BinarySearch.Spec

/-- Value of an IEEE-754 binary32 datum. -/
inductive FVal where
  | nan
  | negInf
  | fin (q : Rat)
  | posInf
  deriving DecidableEq

/-- Magnitude of a finite binary32 with biased exponent `e` and fraction `f`:
subnormal if `e = 0`, otherwise `(1.f) * 2^(e-127)`. -/
def magnitude (e f : Nat) : Rat :=
  if e = 0 then (f : Rat) * 2 ^ (-149 : Int)
  else ((2 ^ 23 + f : Nat) : Rat) * 2 ^ ((e : Int) - 150)

def signBit (b : Word) : Bool := b.getLsbD 31
/-- Biased exponent: bits 23..30. -/
def exponent (b : Word) : Nat := b.toNat / 2 ^ 23 % 2 ^ 8
/-- Fraction: bits 0..22. -/
def fraction (b : Word) : Nat := b.toNat % 2 ^ 23

/-- IEEE-754 decoding of a binary32 bit pattern. -/
def decode (b : Word) : FVal :=
  if exponent b = 255 then
    if fraction b = 0 then (if signBit b then .negInf else .posInf) else .nan
  else .fin (if signBit b then - magnitude (exponent b) (fraction b)
             else magnitude (exponent b) (fraction b))

/-- IEEE-754 ordered comparison `<`: false as soon as one side is NaN. -/
def FVal.lt : FVal → FVal → Bool
  | .nan, _ => false
  | _, .nan => false
  | .negInf, .negInf => false
  | .negInf, _ => true
  | _, .negInf => false
  | .posInf, _ => false
  | _, .posInf => true
  | .fin a, .fin b => decide (a < b)

/-- IEEE-754 ordered comparison `<=`. -/
def FVal.le : FVal → FVal → Bool
  | .nan, _ => false
  | _, .nan => false
  | .negInf, _ => true
  | _, .negInf => false
  | _, .posInf => true
  | .posInf, _ => false
  | .fin a, .fin b => decide (a ≤ b)

def flt (a b : Word) : Bool := (decode a).lt (decode b)
def fle (a b : Word) : Bool := (decode a).le (decode b)
/-- `a > b` -/
def fgt (a b : Word) : Bool := flt b a
/-- `a >= b` -/
def fge (a b : Word) : Bool := fle b a

def IsFinite (b : Word) : Prop := ∃ q, decode b = .fin q
def IsNaN (b : Word) : Prop := decode b = .nan
/-- The rational value of a finite pattern. -/
def Value (b : Word) (q : Rat) : Prop := decode b = .fin q

/-- A predicate on int32 which, once true, is true for all larger values. -/
def MonoInt (p : Word → Bool) : Prop := ∀ a b, a.toInt ≤ b.toInt → p a = true → p b = true

/-- A predicate on float32 monotone for the float order on finite values. -/
def MonoFloat (p : Word → Bool) : Prop :=
  ∀ a b, IsFinite a → IsFinite b → fle a b = true → p a = true → p b = true

/-- `r` is the largest int32 at which `p` is false. -/
def IsLargestFalse (p : Word → Bool) (r : Word) : Prop :=
  p r = false ∧ ∀ y, p y = false → y.toInt ≤ r.toInt

/-- `r` is a largest finite float32 at which `p` is false. -/
def IsLargestFalseFloat (p : Word → Bool) (r : Word) : Prop :=
  IsFinite r ∧ p r = false ∧ ∀ y, IsFinite y → p y = false → fle y r = true

end Verif.BinarySearch.Spec
