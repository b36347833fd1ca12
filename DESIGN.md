# Formal model of Expander/polylogarithm in Lean 4 — design

## 1. What is modelled

All functions of `/repo/src/cpp/*.cpp` and `*.hpp` (the C++ library): `horner.hpp`, `log.hpp`, `zeta.cpp`,
`eta.cpp`, `factorial.cpp`, `harmonic.cpp`, `Li2..Li6.cpp` (float / double / long double where they exist,
real and complex), `Li.cpp`, `Cl1..Cl6.cpp` (double / long double), `Cl.cpp`, `Sl.cpp`.
The model lives in `lean/Verif/Model`.  Every C++ function is *one* Lean definition, polymorphic in an
arithmetic type `F` with the operations `FOps F` (`Model/Ops.lean`); it cites file and lines.
Coefficient tables are extracted from the sources by `tools/gen_model.py` (digit by digit, as rationals);
expressions in the templates `tools/templates/*.lean.in` are written as C++ text, converted by the same
script, which refuses text that does not occur in the cited source file.

Integer code (`int64_t`) is modelled on `Int` with explicit 64-bit range checks (`i64add`, `i64sub`, `i64mul`, `i64neg`);
signed overflow, out-of-bounds reads and unrepresentable float->int casts are the distinct outcomes of `Fault`, and a
function that may exhibit them returns in the monad `M = Except Fault`.
Loops are recursions on a fuel that is the loop's own integer bound; the self-recursion of `Li` (n < -1)
takes explicit fuel and `Fault.fuel` is a distinct outcome, so that termination is a theorem (C21, C22).

Long double functions that depend on `LDBL_DIG` exist in the versions `…l18` (LDBL_DIG <= 18) and `…l36` (> 18).

Not modelled: the Mathematica scripts and test code, CMake, `noexcept`,
excess precision (`FLT_EVAL_METHOD = 0` is assumed: every operation rounds to its type; no contraction to FMA),
other rounding modes, errno and the floating-point status flags, NaN payloads and signs.

The C port `/repo/src/c/*.c` (`Model/C*.lean`, namespace `Polylog.C`) and the Fortran port `/repo/src/fortran/*.f90` (`Model/F*.lean`, namespace
`Polylog.Fortran`) are modelled the same way, function by function.  Fortran passes arguments by reference: a function that assigns to its argument
returns the pair (value, final value of the argument), `Fortran.Ret`; the content of a result variable that is never assigned is an extra parameter.
The headers are not modelled.

## 2. Semantics of `F`

* **Exact reals** — `Verif/Sem/Real.lean`. `R S` is `ℝ`, elementary operations are the mathematical ones
  where these are defined; wherever IEEE would produce NaN/inf (division by zero, log of a nonpositive number,
  ...) the value is an arbitrary parameter of `S` ("junk"), and theorems hold for all `S`; no result can
  depend on a totalisation.  A literal `q` of the source has the value `S.rho q`; theorems assume `S.Lit u`
  (`Sem/Lit.lean`): each literal is within relative `u` of its decimal value and short dyadic numbers are exact.
  `u = 0` gives the decimal constants (`RealSem.dec`), `Sem/LitBits.lean` gives the constants as the compiler stores
  them (`RealSem.bits p`, `p = 24, 53, 64, 113`; its one simplification is an unbounded exponent range: the only literals outside of the
  normal range are the last entries of `B[]` in Cl.cpp, used for n = 7..9 with a factor that makes them irrelevant).
  "Exact elementary operations" / "method error" in the property list means this semantics: all algebraic and elementary
  operations exact, literals rounded.  Rounding errors of the operations themselves are not part of these bounds.
* **IEEE-754 values** — `Verif/Sem/IEEE.lean`. `FP φ L` for a generic binary format `φ` (instances binary32, binary64, x87ext, binary128):
  one NaN, two infinities, signed zeros, concrete correctly rounded (nearest-even) `+ - * /`, `fmod`, `ceil`, comparisons, conversions,
  overflow and gradual underflow; complex multiplication is the four-product form with the C++ Annex-G NaN recovery as a parameter.
  `libm` functions, complex division/sqrt/pow are fields of `L : Lib`, i.e. arbitrary functions; each theorem lists the contract it needs as a
  hypothesis (`CLib`, `CxLib`, `UnityLib`, `PowSane`, `PowBound`, `PowSq`, `PowUnit`, `HangLib`, ...), with an instance proving that the contract is satisfiable.
  `Sem/FPVal.lean`, `Sem/FPAbsorb.lean`: finite data as rationals, error and absorption lemmas.
* Some theorems hold in *every* arithmetic `F` (C05, C19, C30, C22 bounds): no law of the operations is used.

## 3. Specification

`Verif/Spec/Polylog.lean` (40 lines): polylogarithm of every integer order by the textbook integral recursion/derivative (`pLi`, `pLiNeg`, `polyLog`), Clausen and
Glaisher–Clausen functions as real/imaginary part on the unit circle; `riemannZeta`, `Complex.log`, `harmonic`, `Nat.factorial`, `bernoulli` are Mathlib's.
`Proofs/PolylogBasic.lean`, `Proofs/Clausen.lean` prove the textbook facts (power series, Fourier series, inversion formula, boundary values on the cut).

## 4. Properties: model, statement, proof

| id | statements are about | proof |
|----|-------|-------|
| C01 C02 | `zeta`, `neg_eta` over `R S` | rational enclosures of zeta(n) (41 digits, Euler–Maclaurin), exact Bernoulli values for n<0, kernel-checked over the whole table; monotonicity beyond it |
| C03 | `inv_fac` over `R S` | exact rationals over the whole table; tail by monotonicity |
| C04 | `harmonic`, `digamma` over `R S` | Euler–Maclaurin remainder by telescoping |
| C05 | `zeta`, `neg_eta`, `inv_fac`, `harmonic`, every `F` | omega on index arithmetic; exact exceptional arguments |
| C06 | `horner`, `hornerC` over `R S` | induction on the array |
| C07 | `log1p`, `pos_log`, `clog` over `R S` | Mathlib `Complex.log` |
| C08–C12 | real `Li2`, `Li3`, `Li4` over `R S` | analytic identities (inversion, reflection, Landen) + kernel-checked polynomial inequality between p/q and a truncated power series with rigorous tail |
| C13 C14 | `Cl1..Cl6` over `R S`, also for the literals of each format | Fourier series/Bernoulli polynomials, power series with zeta coefficients, same polynomial machinery, Lipschitz argument for PI |
| C15 | `Cl(n,x)`, every n, x | expansion with log for n=7..9 (table B[] certified), series tail for n>=10 |
| C16 | `Sl(n,x)`, every n, x | Bernoulli polynomials n<=25 certified, series tail |
| C17 C18 | complex `Li2..Li6` over `R S` | expansion in log(1-z), log z with Cauchy-type tail bounds, inversion |
| C19 | `Li` over every `F` / `R S` | case analysis |
| C20 C21 | `Li` over `R S` | power series, expansion about 1 with zeta table, inversion, square-root recursion and its contraction |
| C22 | instrumented twins of every looping function (`Props/Cost*.lean`), proved to compute the same value (`*_erase`) | loop bounds by induction; in binary64: rounding analysis of the series loop, contraction of the square-root recursion under rounding; C22_Li_hang: exact orbit of the loop on a concrete argument |
| C23 | `Li`, `Cl`, `Sl`, every `F` / IEEE | range analysis of every index, cast and int64 operation; binary64: magnitude invariants of the two loops of `Li_unity_pos` (`Props/UnityStop.lean`): the factor `p` underflows to zero after 120 iterations, before `zeta` becomes infinite |
| C24 C25 | `Cl*`, `Sl*` over IEEE | sign symmetry of the IEEE operations |
| C26 | range reduction over IEEE | monotonicity of rounding + exact evaluation at the end points |
| C27 | complex functions over `R S` | equivariance of each operation under conjugation |
| C28 | complex vs real over IEEE; imaginary part over `R S` | unfolding of both programs on Im z = 0; boundary values of the polylogarithm |
| C29–C31 | special values, NaN over IEEE / every `F` | evaluation of the branch conditions and of the constants |
| C32 | range reduction over IEEE | fmod is exact |
| C33 C34 | complex `Li2`; all rational approximations | bounds on log; kernel-checked polynomial positivity |
| C35 | real `Li2` over IEEE, all four formats | verified rounding-error analyser (`Sem/FPExpr.lean`, `chk_sound`), run by the kernel over boxes covering [0,1/2] on the expression the model itself produces (`Sem/FPReify.lean`), error calculus for the remaining operations (`Sem/FPNear.lean`), the analytic identities of C08–C10 |
| C36 | C port, real functions, every `F` | the two programs unfold to the same expression |
| C37 | C port, the rest, over `R S` | summation loops = Horner; `pos_clog(1-z)` = `log1p(-z)`; effect of the literal for pi computed exactly; bounds of C08–C18 |
| C38 | Fortran port over `R S` | as C37; powers of pi are separate literals, so the inversion polynomial is re-analysed (`FLiCx.lean`) |
| C39 | Fortran port, every `F` / IEEE / `R S` | unfolding of the assignments |
| C40 | `Cl2..Cl6` over IEEE (double, x87, quadruple for Cl2) | straight-line programs (`Sem/FPProg.lean`) proved equal to the model's branches by `rfl`, analysed by the kernel over boxes covering the reduced interval (`Props/ClFPGen.lean`); exactness of fmod; error of the rounded period; analytic bounds of C13, C14 |
| C41 | real `Li3`, `Li4` over IEEE binary64 | same analyser as C40 on the rational approximations (`Props/Li34FPCert.lean`, `Li34FPOne.lean`), combined with a Taylor/Euler-transformed reference polynomial by the kernel (value and rounding error in one certificate, so the bound is relative to |x|); inversion and five-term identities; `1/x < 1` strictly for x > 1 in IEEE, so `li4_one` never sees 1 |
| C42 | complex `Li5`, `Li6` (C++), `cli5/6` (C), `cdli5/6` (Fortran) over IEEE binary64, 0 < x <= 2^-55 | 1 - x rounds to 1, so `log(1-x)` is 0 in the ports and the expansion vanishes exactly; in C++ `log1p(-x)` and the Horner scheme are followed with relative error bounds (`Props/PortTiny.lean`) |
| C43 | complex `Li5`, `Li6` over IEEE binary64, just above the cut | `atan2` and `hypot` give the same value as on the cut, every later operation sees the same operands; jump from `pLi_im_cut` and `Im Li_n >= 0` in the upper half plane (`Props/CutFP.lean`) |
| C44 | complex `Li3..Li6` over IEEE (double, x87, binary128), off the real axis | branches reified as expressions (`Sem/CEReify.lean`, `Props/LiFPLong.lean`), a verified running-error analyser for complex expressions (`Sem/FPCE.lean`, `Sem/CEHorner.lean`) run by the kernel over boxes; rounding of `log1p(-z)`, `log(z)` (`Props/ClogFP.lean`, `LiFPCx.lean`); a branch taken at a perturbed argument is compared with Li_n through the Lipschitz bound `pLi_lip` (`Proofs/PLiLip.lean`); method error from C18; existence of a library meeting the contract: `cxLib_exists` |
| C45 | complex `Li2` over IEEE (double, x87, binary128), off the real axis | the exact identities of the five branches hold on slightly enlarged regions, so a branch selected by a rounded comparison is still right (`Props/CLi2FPGeo.lean`, `CLi2FPBr.lean`: `norm_test`, `two_mul_val`); rounding of `log1p`, `log`, and of `log(z)*log1p(-z)` near z = 1, where `1-x` is exact; complex running-error analyser of C44 for the series (`CLi2FPMain.lean`, `CLi2FPInst.lean`); the float overload is excluded (binary32 lacks the exponent range `FmtB` asks for) |
| C46 | complex functions of the C and Fortran ports over IEEE | the ports are brought to the common shape of C44/C45 with the port's own expression (Estrin grouping, `sum` loop, `log` by parts, `-(1/z)`) reified as data; the C44 analyser runs on that expression, and its exact value is that of the C++ function by C37 (`Props/PortFP.lean`, `PortFPInst.lean`, `PortFPLong.lean`, `PortFPLi2.lean`) |
| C47 | `Sl(n, x)`, n = 1..25, over IEEE binary64 | the polynomials of C16 evaluated symbolically (`slCoreN (FE.var 0)`, equal to the model by `rfl`) and run through the C40 analyser on 32 boxes covering the reduced interval (`Props/SlFP.lean`); range reduction of C40 for any periodic function with a parity (`Props/SlFPGen.lean`); polynomial coefficients against zeta values and pi by C16 |
| C48 | `Sl(n, x)`, n >= 26, and `Cl(n, x)`, n >= 10, over IEEE binary64 | number of terms `ceil(pow(eps, -1/n))` enclosed and shown large enough for the tail (`Props/SerFPK.lean`); error growth of the Chebyshev recurrence followed term by term against the weights k^-n (`Props/SerFP.lean`, `SerFPMain.lean`); range reduction of C47, special point PI of the even Cl (`C48.lean`) |
| C49 | `Cl(n, x)`, n = 7, 8, 9, over IEEE binary64, and `Cl(1, x)` at `±2^-1074` | the run over the doubles is followed in lock step with the run over the reals of C15, term by term: `pcal`, `ncal`, `nsum`, `powi`, the logarithm (`Props/ClMidFP.lean` ... `ClMidFP7.lean`); `log(2 sin(x/2))` for tiny x needs sin to be the identity there and x/2 >= 2^-1074; the reduced argument is never 2^-1074 unless x is (`reduce_gran`: it is a multiple of 2^-62 after a reduction); `ClMin.lean`: the exceptional argument |

The theorem names per property are in `MANIFEST.json`; all are in namespace `Polylog`, in `lean/Verif/Props`.

## 5. Trusted base

* Lean 4.33.0 kernel and the three standard axioms `propext`, `Classical.choice`, `Quot.sound`; nothing else (no own axioms, no `native_decide`,
  no `bv_decide`; table certificates are evaluated by the kernel with `decide +kernel`).  Every property theorem depends on at most these three.
* The faithfulness of the model: our reading of the C++ text, and `tools/gen_model.py` (run once; its output is committed).
* The two semantics of section 2 as renderings of C++ arithmetic, and the contracts on `libm` stated as hypotheses.

## 6. Findings about the code (each one is a theorem where a name is given)

1. Signed overflow (undefined behaviour): `zeta`/`neg_eta` at `INT64_MIN+1` (`C05_zeta_fault`), `harmonic(INT64_MAX)` (`C05_harmonic_fault`); `Li` near
   `INT64_MIN` (`1-n`, `n-1`, `n-k`); `Li_unity_pos`: `(j-1)*j` for j > 3037000500 (`C23_Li_overflow`: certain for every n >= 3037000498 and 0.75 < |z| < 1.4), and n+1, n+3 near `INT64_MAX`; its first loop runs n−2 iterations.
2. Complex Li2: for Re z >= 2^1023, Im z != 0 both `norm` and `2*rz` overflow and the wrong branch is taken. Li3–Li6: `hypot` overflow gives inf/NaN.
3. Real `Li2(-inf)` is NaN. `Li(n, ±inf)` is (-inf, 0) also for n <= 0, where the limit is finite (`C30_inf`).
4. `Li_rest` never updates `old_sum`: the loop ends early exactly when a partial sum vanishes (`C20_inversion_exceptions`), and it returns as soon as
   `inv_fac` is 0: terms log(-z)^k/k! with k >= 178 are dropped (`C20_dropped_terms`: factor-10 error for n >= 232, z = -exp 230).
5. `Li_unity_pos`: the second loop would not stop on a NaN sum; in binary64 it stops after 121 iterations (`C23_Li`), `zeta` is ±inf only after 129.
6. `Li_unity_neg` is wrong by O(1) near z = -1 for n ≲ -80 (`C21_tables_exhausted` for n = -169).
7. `Li_series` does not stop in practice for some arguments with subnormal imaginary part (`C22_Li_hang`: Li(-2, -0.505859375 + 4.9e-324 i) performs 2^63-3 iterations).
8. Real long double Li2 (LDBL_DIG > 18): documented error 1.03e-38, actual 2.1e-36 near x = 1/2 (`C10_Li2l36_doc_not_met`).
9. Complex long double Li2 (LDBL_DIG <= 18): truncation error ≈ 2e-18; complex double Li3, Li4: truncation ≈ 3–5e-15; long double Cl3–Cl6 upper branch: 1.4e-26–2.7e-26 (not quadruple precision).
10. `Sl(1, 2*PI)` at the binary64 2*PI returns 0 instead of ≈ -π/2 (jump point); Sl of odd order with reduced x == 0 returns x.
11. `static_assert` in Cl.cpp one short of the table; complex `horner` admits Nstart = N-1 although it reads two coefficients (`C06_hornerC_last`); wrong doc comment of `inv_fac`.
12. binary32 `Li2(1)` is off by more than 1.1e-7; x87 complex `Li4(-1)` by more than 1.05e-19 (rounding of the constants).
13. Fortran port: `dcl2..dcl6` and `dli4` overwrite the caller's variable (`C39_dcl_overwrites`, `C39_dli4_overwrites`); `cdli2(NaN + 0i)` returns an
   undefined value (`C39_cdli2_nan`).
14. C and Fortran `pos_clog` use a decimal literal for pi where C++ has `4*atan(1)`: visible on the real axis between 1 and e (`C37_cli5` ...).
15. Long double Cl3, Cl5, Cl6 (and, less so, Cl4): the numerator of the upper rational approximation is ill-conditioned near x = pi/2 (`(PI-x)^2 - PI^2/8` powers with alternating large coefficients); the
   proved x87 bounds of C40 lose 3–4 digits there (12121 u, 50501 u against 25 u in double).
16. `li4_mid` (Li4.cpp, 1/2 <= x < 0.8) is ill-conditioned near x = 0.8: the denominator is about 0.024 there with coefficients of order 1; proved bound 1301 u instead of 50 u elsewhere (C41).
17. C and Fortran ports of complex Li5, Li6 form `log(1 - z)` where C++ uses `log1p(-z)`: they return 0 for 0 < x <= 2^-55 (`C42_cli5_zero` ...).
18. Complex Li5, Li6 (C++) just above the cut return the value on the cut when `atan2(y,x)` underflows (`C43_Li5d`, `C43_Li6d`).
19. `Cl(n, ±2^-1074)`, n = 7, 8, 9, is NaN and `Cl(1, ±2^-1074)` is +inf: `x/2` underflows to zero inside `log(2*sin(x/2))` although `x != 0` was tested (`C49_denorm_nan`, `C49_Cl1_denorm`); every other finite double is fine (`C49_Cl`).

## 7. Mutation testing

`seeded/mutations.py` lists the edits, `seeded/run.py` applies one to a scratch copy of `lean/` and rebuilds; `seeded/LOG.jsonl` is the log.
