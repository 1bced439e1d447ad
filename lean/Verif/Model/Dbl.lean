/-!
# Non-negative `double`

The arithmetic of IEEE 754 binary64 that the rates of meters use (`/repo/src/bm_sim/meters.cpp:75-76`,
`/repo/PI/src/direct_res_spec.cpp:39-107`): conversion from unsigned integers, product, quotient,
comparison, truncation; rounding to nearest, ties to even.

Every finite non-negative `double` is a multiple of 2^-1074, the smallest one above zero.  Here it
is that multiple, a natural number.  Numbers of 2^1024 and more (infinity) are out of the model; the
theorems that use this model bound their inputs so that they do not arise.
-/

namespace Bm.Dbl

/-- One, in units of 2^-1074. -/
def one : Nat := 2 ^ 1074

/-- The quotient `n / d` rounded to the nearest integer, ties to even. -/
def rne (n d : Nat) : Nat :=
  if 2 * (n % d) < d then n / d
  else if d < 2 * (n % d) then n / d + 1
  else n / d + (n / d) % 2

/-- Distance of neighbouring `double` values at `q` units: 53 significant digits. -/
def ulp (q : Nat) : Nat := 2 ^ (Nat.log2 q - 52)

/-- The `double` next to `n / d` units. -/
def rnd (n d : Nat) : Nat := rne n (d * ulp (n / d)) * ulp (n / d)

/-- `static_cast<double>(n)`.  `/repo/PI/src/direct_res_spec.cpp:54,60`,
`/repo/src/bm_sim/meters.cpp:76`. -/
def ofNat (n : Nat) : Nat := rnd (n * one) 1

/-- Product.  `/repo/PI/src/direct_res_spec.cpp:81,86`, `/repo/src/bm_sim/meters.cpp:76`. -/
def mul (a b : Nat) : Nat := rnd (a * b) one

/-- Quotient by a positive number.  `/repo/PI/src/direct_res_spec.cpp:54,60`. -/
def div (a b : Nat) : Nat := rnd (a * one) b

/-- `static_cast<uint64_t>(a)`, for values below 2^64.  `/repo/PI/src/direct_res_spec.cpp:81,86`,
`/repo/src/bm_sim/meters.cpp:76`. -/
def trunc (a : Nat) : Nat := a / one

end Bm.Dbl
