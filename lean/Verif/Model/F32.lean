import Verif.Model.Prim
/-!
# `f32` arithmetic

The program uses `f32` only for non-negative numbers shown to the user.  A value `x` is represented by
the natural number `x * 2 ^ s` for some scale `s` large enough that it is a whole number.  Zero,
and all values between `2 ^ -126` and `2 ^ 128` that occur, have 24 significant bits; subnormal
numbers, infinities and NaN do not arise.
-/

namespace MapEditr

/-- The whole number nearest to `a / b`; the even one of two equally near. -/
def nearest (a b : Nat) : Nat :=
  let q := a / b
  let r := a % b
  if 2 * r < b then q else if b < 2 * r then q + 1 else if q % 2 = 0 then q else q + 1

/-- `a / b` rounded to 24 significant bits, provided that `2 ^ 23 ≤ a / b` (so the last of them is not
below the units) or that `a / b` is a whole number. -/
def rnd (a b : Nat) : Nat :=
  let k := Nat.log2 (a / b) - 23
  nearest a (b * 2 ^ k) * 2 ^ k

end MapEditr
