import Verif.Model.ClReduce

/-! # `Cl1.cpp` -/

namespace Polylog

section
variable {F : Type} [FOps F]

/-- numeric literal -/
local notation:max "♯" q:max => (FOps.lit (q : ℚ) : F)

%src cpp/Cl1.cpp 18 43
/-- `double Cl1(double x)` (Cl1.cpp 18-43) -/
def Cl1d (x : F) : F :=
  let PI : F := ⟪3.14159265358979324⟫
  let x := reduceAbs PI ⟪0.0019353071795864769253⟫ x
  if ⟪x == 0⟫ then FOps.inf
  else ⟪-std::log(2.0*std::sin(0.5*x))⟫

end
end Polylog
