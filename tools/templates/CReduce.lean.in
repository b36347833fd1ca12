import Verif.Model.Ops

/-! # Range reduction shared by `src/c/Cl2.c` ... `src/c/Cl6.c` -/

namespace Polylog.C

section
variable {F : Type} [FOps F]

/-- numeric literal -/
local notation:max "♯" q:max => (FOps.lit (q : ℚ) : F)

/-- Range reduction without sign: `if (x < 0) x = -x; if (x >= PI2) x = fmod(x, PI2); if (x > PI) x = (p0 - x) + p1;`, textually repeated in
Cl3.c 22-34 and 94-106, Cl5.c 22-34 and 95-107. -/
def reduceAbs (PI p1 x : F) : F :=
  let PI2 := ♯2 *. PI
  let x := if x <. ♯0 then ∸x else x
  let x := if x >=. PI2 then FOps.fmod x PI2 else x
  if x >. PI then (♯6.28125 -. x) +. p1 else x

/-- Range reduction with sign, returns `(x, sgn)`: textually repeated in
Cl2.c 20-36 and 101-117, Cl4.c 21-37 and 100-116, Cl6.c 20-36 and 96-112. -/
def reduceSgn (PI p1 x : F) : F × F :=
  let PI2 := ♯2 *. PI
  let xs : F × F := if x <. ♯0 then (∸x, ∸♯1) else (x, ♯1)
  let x := xs.1
  let sgn := xs.2
  let x := if x >=. PI2 then FOps.fmod x PI2 else x
  if x >. PI then ((♯6.28125 -. x) +. p1, ∸sgn) else (x, sgn)

end
end Polylog.C
