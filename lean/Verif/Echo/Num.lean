/-!
# Numbers printed with `%g`

`fprintf` with `%g` prints six significant digits. Coordinates are whole numbers; a number with a fraction is counted
in units of its last digit, since moving the point moves the printed digits in the same way. Ties are rounded to an even
digit, as the C library does in its default rounding mode.
-/

namespace TR

/-- the power of ten that the last of six printed digits counts -/
def ehUnitAux : Nat → Nat → Nat → Nat
  | 0, _, u => u
  | f + 1, n, u => if n < 1000000 * u then u else ehUnitAux f n (10 * u)

def ehUnit (n : Nat) : Nat := ehUnitAux n n 1

/-- the six digits: `n / u` rounded to the nearest, ties to even -/
def ehDigits (n u : Nat) : Nat :=
  if 2 * (n % u) < u then n / u
  else if u < 2 * (n % u) then n / u + 1
  else if n / u % 2 = 0 then n / u else n / u + 1

/-- the number that `%g` prints for a natural number — src/io/defw.cpp:1895, 2278-2284, 2310-2327, 2333 -/
def ehGNat (n : Nat) : Nat := ehDigits n (ehUnit n) * ehUnit n

/-- the number that `%g` prints -/
def ehG (n : Int) : Int := if n < 0 then -(ehGNat n.natAbs : Int) else (ehGNat n.natAbs : Int)

end TR
