import Verif.Model.Cl1
import Verif.Model.Cl2
import Verif.Model.Cl3
import Verif.Model.Cl4
import Verif.Model.Cl5
import Verif.Model.Cl6
import Verif.Model.Sl

/-! # `Cl.cpp` -/

namespace Polylog

/-- `B[]` (Cl.cpp 27-79) -/
def clB : Vector ℚ 202 :=
  #v[
    -8.3333333333333333e-2, -1.3888888888888889e-3, -3.3068783068783069e-5, -8.2671957671957672e-7,
    -2.0876756987868099e-8, -5.2841901386874932e-10, -1.3382536530684679e-11,
    -3.3896802963225829e-13, -8.5860620562778446e-15, -2.1748686985580619e-16,
    -5.5090028283602295e-18, -1.3954464685812523e-19, -3.5347070396294675e-21,
    -8.9535174270375469e-23, -2.2679524523376831e-24, -5.7447906688722024e-26,
    -1.4551724756148649e-27, -3.6859949406653102e-29, -9.3367342570950447e-31,
    -2.3650224157006299e-32, -5.9906717624821343e-34, -1.5174548844682903e-35,
    -3.8437581254541882e-37, -9.7363530726466910e-39, -2.4662470442006810e-40,
    -6.2470767418207437e-42, -1.5824030244644914e-43, -4.0082736859489360e-45,
    -1.0153075855569556e-46, -2.5718041582418717e-48, -6.5144560352338149e-50,
    -1.6501309906896525e-51, -4.1798306285394759e-53, -1.0587634667702909e-54,
    -2.6818791912607707e-56, -6.7932793511074212e-58, -1.7207577616681405e-59,
    -4.3587303293488938e-61, -1.1040792903684667e-62, -2.7966655133781345e-64,
    -7.0840365016794702e-66, -1.7944074082892241e-67, -4.5452870636110961e-69,
    -1.1513346631982052e-70, -2.9163647710923614e-72, -7.3872382634973376e-74,
    -1.8712093117637953e-75, -4.7398285577617994e-77, -1.2006125993354507e-78,
    -3.0411872415142924e-80, -7.7034172747051063e-82, -1.9512983909098831e-83,
    -4.9426965651594615e-85, -1.2519996659171848e-86, -3.1713522017635155e-88,
    -8.0331289707353345e-90, -2.0348153391661466e-91, -5.1542474664474739e-93,
    -1.3055861352149467e-94, -3.3070883141750912e-96, -8.3769525600490913e-98,
    -2.1219068717497138e-99, -5.3748528956122803e-101, -1.3614661432172069e-102,
    -3.4486340279933990e-104, -8.7354920416383551e-106, -2.2127259833925497e-107,
    -5.6049003928372242e-109, -1.4197378549991788e-110, -3.5962379982587627e-112,
    -9.1093772660782319e-114, -2.3074322171091233e-115, -5.8447940852990020e-117,
    -1.4805036371705745e-118, -3.7501595226227197e-120, -9.4992650419929583e-122,
    -2.4061919444675199e-123, -6.0949553971026848e-125, -1.5438702377042471e-126,
    -3.9106689968592923e-128, -9.9058402898794298e-130, -2.5091786578563553e-131,
    -6.3558237896024598e-133, -1.6099489734616250e-134, -4.0780483898724622e-136,
    -1.0329817245315190e-137, -2.6165732752609202e-139, -6.6278575334086228e-141,
    -1.6788559257443673e-142, -4.2525917390343006e-144, -1.0771940713664573e-145,
    -2.7285644580839580e-147, -6.9115345134370137e-149, -1.7507121442157682e-150,
    -4.4346056667239196e-152, -1.1232987378487150e-153, -2.8453489425693971e-155,
    -7.2073530684151368e-157, -1.8256438595501418e-158, -4.6244099189746555e-160,
    -1.1713767165946985e-161, -2.9671318854112523e-163, -7.5158328663197353e-165,
    -1.9037827051837494e-166, -4.8223379271757316e-168, -1.2215124667619569e-169,
    -3.0941272241548313e-171, -7.8375158172837117e-173, -1.9852659485568249e-174,
    -5.0287373938151486e-176, -1.2737940624195893e-177, -3.2265580530233667e-179,
    -8.1729670255761088e-181, -2.0702367322529201e-182, -5.2439709032927841e-184,
    -1.3283133472690102e-185, -3.3646570148302941e-187, -8.5227757823275058e-189,
    -2.1588443254591854e-190, -5.4684165588767235e-192, -1.3851660959868732e-193,
    -3.5086667096656512e-195, -8.8875566007447618e-197, -2.2512443861893281e-198,
    -5.7024686469217722e-200, -1.4444521824735857e-201, -3.6588401210745441e-203,
    -9.2679502956336812e-205, -2.3475992347298971e-206, -5.9465383295169881e-208,
    -1.5062757553029781e-209, -3.8154410604763518e-211, -9.6646251091260105e-213,
    -2.4480781387902631e-214, -6.2010543667790175e-216, -1.5707454206813435e-217,
    -3.9787446306053875e-219, -1.0078277884588346e-220, -2.5528576108572180e-222,
    -6.4664638700600961e-224, -1.6379744332372530e-225, -4.1490377087871461e-227,
    -1.0509635290775169e-228, -2.6621217182765621e-230, -6.7432330873938832e-232,
    -1.7080808949773099e-233, -4.3266194508991167e-235, -1.0959455098376500e-236,
    -2.7760624066064009e-238, -7.0318482225589324e-240, -1.7811879627573501e-241,
    -4.5118018169014740e-243, -1.1428527511202687e-244, -2.8948798368101921e-246,
    -7.3328162891986569e-248, -1.8574240646335573e-249, -4.7049101188608530e-251,
    -1.1917676554344843e-252, -3.0187827368818927e-254, -7.6466660014982318e-256,
    -1.9369231254735576e-257, -4.9062835924299293e-259, -1.2427761521749539e-260,
    -3.1479887685209103e-262, -7.9739487029830971e-264, -2.0198248022238287e-265,
    -5.1162759927867278e-267, -1.2959678485750701e-268, -3.2827249095010017e-270,
    -8.3152393350706909e-272, -2.1062747292467202e-273, -5.3352562160805552e-275,
    -1.3514361871210552e-276, -3.4232278524048296e-278, -8.6711374470768819e-280,
    -2.1964247741580717e-281, -5.5636089474762561e-283, -1.4092786097034883e-284,
    -3.5697444204246398e-286, -9.0422682494513886e-288, -2.2904333046148606e-289,
    -5.8017353369352214e-291, -1.4695967287946349e-292, -3.7225320009595016e-294,
    -9.4292837120924187e-296, -2.3884654665215509e-297, -6.0500537039203004e-299,
    -1.5324965059522865e-300, -3.8818589977708149e-302, -9.8328637096699497e-304,
    -2.4906934741438690e-305, -6.3090002722625804e-307, -1.5980884379636898e-308,
    -4.0480053024903931e-310, -1.0253717215969654e-311, -2.5972969126396544e-313,
    -6.5790299364809836e-315, -1.6664877509565689e-316, -4.2212627863094242e-318,
    -1.0692583549355590e-319, -2.7084630535382438e-321, -6.8606170609008831e-323]

/-- `binomial[8][8]` (Cl.cpp 82-91) -/
def clBinomial : Vector (Vector Int 8) 8 := #v[
    #v[1, 0,  0,  0,   0,   0,  0,  0],
    #v[1, 1,  0,  0,   0,   0,  0,  0],
    #v[1, 2,  1,  0,   0,   0,  0,  0],
    #v[1, 3,  3,  1,   0,   0,  0,  0],
    #v[1, 4,  6,  4,   1,   0,  0,  0],
    #v[1, 5, 10, 10,   5,   1,  0,  0],
    #v[1, 6, 15, 20,  15,   6,  1,  0],
    #v[1, 7, 21, 35,  35,  21,  7,  1]]

/-- `inverse_factorial[]` (Cl.cpp 94-96) -/
def clInvFac : Vector ℚ 9 :=
  #v[
    1, 1, 1 / 2, 1 / 6, 1 / 24, 1 / 120, 1 / 720, 1 / 5040, 1 / 40320]

/-- `zeta[]` (Cl.cpp 99-103) -/
def clZeta : Vector ℚ 8 :=
  #v[
    1.6449340668482264, 1.2020569031595943, 1.0823232337111382, 1.0369277551433699,
    1.0173430619844491, 1.0083492773819228, 1.0040773561979443, 1.0020083928260822]

section
variable {F : Type} [FOps F]

/-- numeric literal -/
local notation:max "♯" q:max => (FOps.lit (q : ℚ) : F)
/-- conversion of an integer -/
local notation:max "♮" k:max => (FOps.ofInt k : F)

/-- `double range_reduce(int64_t n, double& x)` (Cl.cpp 165-176); returns `(x, sgn)` -/
def clReduce (n : Int) (x : F) : F × F :=
  let PI : F := ♯3.14159265358979324
  if isEven n then reduceSgn PI ♯0.0019353071795864769253 x
  else (reduceAbs PI ♯0.0019353071795864769253 x, ♯1)

/-- loop of `pcal` (Cl.cpp 184-187), `fuel` remaining iterations -/
def pcalLoop (n : Int) (x2 : F) : (fuel : Nat) → (i : Int) → F → M F
  | 0, _, sum => pure sum
  | fuel + 1, i, sum => do
    let sign : F := if isEven (i64div (n - 1) 2 + i64div (i - 1) 2) then ♯1 else ∸♯1
    let zi ← arrGet clZeta (i - 2)
    let fi ← arrGet clInvFac (n - i)
    pcalLoop n x2 fuel (i + 2) (x2 *. sum +. sign *. ♯zi *. ♯fi)

/-- `double pcal(int64_t n, double x)` (Cl.cpp 179-194); called with `7 <= n <= 9` only, so the integer
operations (unchecked here) are on small numbers.
Number of iterations of `for (i = 3; i <= n; i += 2)`: `(n - 1)/2`. -/
def pcal (n : Int) (x : F) : M F := do
  let x2 := x *. x
  let sum ← pcalLoop n x2 (i64div (n - 1) 2).toNat 3 ♯0
  pure (if isEven n then sum *. x else sum)

/-- loop of `ncal` (Cl.cpp 204-211), `k` is the loop variable, `fuel` remaining iterations -/
def ncalLoop (n : Int) (x2 : F) : (fuel : Nat) → (k : Int) → (sum xn : F) → M F
  | 0, _, sum, _ => pure sum
  | fuel + 1, k, sum, xn => do
    let b ← arrGet clB (k - 1)
    let oldSum := sum
    let sum := sum +. ♯b *. xn /. ♮(2*k + n + 1)
    if sum ==. oldSum then pure sum
    else ncalLoop n x2 fuel (k + 1) sum (xn *. x2)

/-- `double ncal(int64_t n, double x)` (Cl.cpp 197-214); called with `0 <= n <= 7` -/
def ncal (n : Int) (x : F) : M F := do
  let xn1 := powi x (n + 1)
  let x2 := x *. x
  let xn := xn1 *. x2
  let sum ← ncalLoop n x2 202 1 ♯0 xn
  pure ((xn1 /. ♮(n + 1) +. sum) /. ♮(n + 1))

/-- loop of `nsum` (Cl.cpp 222-225); returns `(sum, xn)` -/
def nsumLoop (n : Int) (x : F) : (fuel : Nat) → (i : Int) → (sum xn : F) → M (F × F)
  | 0, _, sum, xn => pure (sum, xn)
  | fuel + 1, i, sum, xn => do
    let row ← arrGet clBinomial (n - 2)
    let b ← arrGet row i
    let nc ← ncal (n - 2 - i) x
    nsumLoop n x fuel (i + 1) (sum +. ♮b *. xn *. nc) (xn *. ∸x)

/-- `double nsum(int64_t n, double x)` (Cl.cpp 217-228); `for (i = 0; i <= n - 3; ++i)` -/
def nsum (n : Int) (x : F) : M F := do
  let r ← nsumLoop n x (n - 2).toNat 0 ♯0 ♯1
  let n0 ← ncal 0 x
  pure (r.1 +. r.2 *. n0)

/-- `double cl_series(int64_t n, double x)` (Cl.cpp 231-262); the loops are textually those of
`sl_series` with the parity of `n` exchanged (`slSinLoop`: Cl.cpp 242-247, `slCosLoop`: Cl.cpp 252-257) -/
def clSeries (n : Int) (x : F) : M F := do
  let kmax ← seriesKmax F n
  let co := FOps.cos x
  if isEven n then
    let si := FOps.sin x
    pure (slSinLoop n co (kmax - 1).toNat 2 ♯0 si si)
  else pure (slCosLoop n co (kmax - 1).toNat 2 ♯1 co co)

/-- the branch `n <= N_THRESH` of `Cl` (Cl.cpp 308-322) -/
def clMid (n : Int) (x sgn : F) : M F := do
  let sign1 : F := if isEven (i64div (n + 1) 2) then ♯1 else ∸♯1
  let f1 ← arrGet clInvFac (n - 1)
  let term1 : F := if x ==. ♯0 then ♯0
    else sign1 *. powi x (n - 1) *. ♯f1 *. FOps.log (♯2 *. FOps.sin (x /. ♯2))
  let sign2 : F := if isEven (i64div n 2) then ♯1 else ∸♯1
  let f2 ← arrGet clInvFac (n - 2)
  let pc ← pcal n x
  let ns ← nsum n x
  let term2 := pc -. sign2 *. ♯f2 *. ns
  pure (sgn *. (term1 +. term2))

/-- `double Cl(int64_t n, double x)` (Cl.cpp 270-326); `N_THRESH = 9` -/
def Cl (n : Int) (x : F) : M F :=
  let PI : F := ♯3.14159265358979324
  if n < 1 then pure FOps.nan
  else if n = 1 then pure (Cl1d x)
  else if n = 2 then pure (Cl2d x)
  else if n = 3 then pure (Cl3d x)
  else if n = 4 then pure (Cl4d x)
  else if n = 5 then pure (Cl5d x)
  else if n = 6 then pure (Cl6d x)
  else
    let xs := clReduce n x
    let x := xs.1
    let sgn := xs.2
    if isEven n && x ==. ♯0 then pure x
    else if isEven n && x ==. PI then pure ♯0
    else if n ≤ 9 then clMid n x sgn
    else do
      let s ← clSeries n x
      pure (sgn *. s)

end
end Polylog
