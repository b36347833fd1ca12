import Verif.Model.Horner

/-! # Range reduction shared by `Cl1.cpp` ... `Cl6.cpp`, `Cl.cpp`, `Sl.cpp` -/

namespace Polylog

section
variable {F : Type} [FOps F]

/-- numeric literal -/
local notation:max "♯" q:max => (FOps.lit (q : ℚ) : F)

/-- Range reduction without sign: `if (x < 0) x = -x; if (x >= PI2) x = fmod(x, PI2);
if (x > PI) x = (p0 - x) + p1;`, textually repeated in
Cl1.cpp 25-37, Cl3.cpp 25-37 and 97-109, Cl5.cpp 25-37 and 98-110, Cl.cpp 123-138 (`range_reduce_odd`),
Sl.cpp 25-40 (`range_reduce_even`).  `PI` and `p1` are the literals of the respective file (`PI2 = 2*PI`,
`p0 = 6.28125` everywhere). -/
def reduceAbs (PI p1 x : F) : F :=
  let PI2 := ♯2 *. PI
  let x := if x <. ♯0 then ∸x else x
  let x := if x >=. PI2 then FOps.fmod x PI2 else x
  if x >. PI then (♯6.28125 -. x) +. p1 else x

/-- Range reduction with sign, returns `(x, sgn)`: textually repeated in
Cl2.cpp 23-38 and 107-122, Cl4.cpp 24-40 and 101-117, Cl6.cpp 23-39 and 99-115, Cl.cpp 141-162
(`range_reduce_even`), Sl.cpp 43-64 (`range_reduce_odd`). -/
def reduceSgn (PI p1 x : F) : F × F :=
  let PI2 := ♯2 *. PI
  let xs : F × F := if x <. ♯0 then (∸x, ∸♯1) else (x, ♯1)
  let x := xs.1
  let sgn := xs.2
  let x := if x >=. PI2 then FOps.fmod x PI2 else x
  if x >. PI then ((♯6.28125 -. x) +. p1, ∸sgn) else (x, sgn)

end
end Polylog
