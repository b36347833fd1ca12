#!/usr/bin/env python3
"""Writes /verif/properties.jsonl."""
import json, os
P = []
def prop(title, statement, quantifier, why, anchors):
    P.append(dict(id='C%02d' % (len(P)+1), title=title, statement=statement, quantifier=quantifier,
                  why_tests_cant=why, anchors=anchors))
CONT = 'The domain is a continuum (or 2^64 / 2^32 / 2^80 points per argument); a test samples finitely many points and only shows the error there, not between them.'
# ---- tables and integer-order helpers
prop('zeta(n) is the Riemann zeta function at every integer',
     'For every int64 n the value returned for zeta(n) agrees with the Riemann zeta function at n to relative accuracy 2.3e-16 (exact 0 at negative even n, -1/2 at 0, +inf at n=1); where |zeta(n)| exceeds the double range (odd n <= -261) the result is an infinity with the sign of zeta(n).',
     'every 64-bit signed integer n for which the call has defined behaviour',
     '2^64 arguments; for n>33 and n<-260 the code switches to closed formulas that tests only spot-check.',
     ['src/cpp/zeta.cpp:zeta', 'src/cpp/zeta.cpp:ZETAS_POS', 'src/cpp/zeta.cpp:ZETAS_NEG'])
prop('neg_eta(n) is minus the Dirichlet eta function at every integer',
     'For every int64 n the value returned for neg_eta(n) agrees with Li_n(-1) = (2^(1-n)-1) zeta(n) to relative accuracy 2.3e-16 (-log 2 at n=1, exact 0 at negative even n); beyond the double range it is an infinity of the right sign; for n > 54 the value -1 is the correctly rounded one.',
     'every 64-bit signed integer n for which the call has defined behaviour',
     '2^64 arguments; the n > 54 and very negative branches are constants that no finite test justifies.',
     ['src/cpp/eta.cpp:neg_eta', 'src/cpp/eta.cpp:NEG_ETA', 'src/cpp/eta.cpp:NEG_ETA_NEG_N'])
prop('inv_fac(n) is 1/n! for every n',
     'inv_fac(n) is NaN for n<0, agrees with 1/n! to relative accuracy 2e-16 for 0 <= n <= 177 and is 0 for n >= 178, where 1/n! is below half the smallest positive double.',
     'every 64-bit signed integer n',
     '2^64 arguments; the tail branch is an asymptotic claim.',
     ['src/cpp/factorial.cpp:inv_fac'])
prop('harmonic(n) is the harmonic number for every n',
     'harmonic(n) is NaN for n <= 0 and agrees with 1 + 1/2 + ... + 1/n to within 1e-15 (method error) for every n >= 1, in particular for the asymptotic branch n >= 20.',
     'every 64-bit signed integer n below the maximum',
     'The asymptotic series is used for 2^63 arguments.',
     ['src/cpp/harmonic.cpp:harmonic', 'src/cpp/harmonic.cpp:digamma'])
prop('Table look-ups never leave their arrays and integer arithmetic does not overflow',
     'zeta, neg_eta, inv_fac and harmonic have defined behaviour (no out-of-bounds read, no signed overflow) for every int64 argument except exactly these: zeta and neg_eta at INT64_MIN+1 and harmonic at INT64_MAX.',
     'every 64-bit signed integer n',
     'The failing arguments are isolated points in 2^64; tests do not hit them and without a sanitizer would not notice.',
     ['src/cpp/zeta.cpp:zeta', 'src/cpp/eta.cpp:neg_eta', 'src/cpp/factorial.cpp:inv_fac', 'src/cpp/harmonic.cpp:harmonic'])
# ---- helpers
prop('Polynomial evaluation is exact in the polynomial sense',
     'The real and the complex evaluation scheme return sum_i c_i x^i (respectively sum_{i>=Nstart} c_i z^(i-Nstart)) when the elementary operations are exact.',
     'every argument x or z, every coefficient array of every length, every start index',
     'Unbounded family of polynomials and points.',
     ['src/cpp/horner.hpp:horner'])
prop('Complex log1p, pos_log and clog are branches of the logarithm',
     'With exact elementary operations log1p(z) = log(1+z) for every z != -1, and pos_log(z), clog(z) are the logarithm of z with imaginary part in (-pi, pi], negative reals mapped to +i pi irrespective of the sign of a zero imaginary part.',
     'every complex z (z != 0, resp. z != -1)',
     CONT, ['src/cpp/log.hpp:log1p', 'src/cpp/log.hpp:pos_log', 'src/cpp/Li.cpp:clog'])
# ---- real functions: method accuracy
prop('Real dilogarithm (float) has method error at most 3e-7 everywhere',
     'With exact elementary operations the float Li2(x) differs from Re Li_2(x) by at most 3e-7 (2e-7 for the rational approximation on [0,1/2]) for every real x.',
     'every real x', CONT, ['src/cpp/Li2.cpp:float Li2(float)'])
prop('Real dilogarithm (double) has method error at most 1.5e-16 everywhere',
     'With exact elementary operations the double Li2(x) differs from Re Li_2(x) by at most 1.5e-16 for every real x; the rational approximation satisfies the documented 5e-17 on [0,1/2].',
     'every real x', CONT, ['src/cpp/Li2.cpp:double Li2(double)'])
prop('Real dilogarithm (long double) has the documented method error everywhere',
     'With exact elementary operations the long double Li2(x) differs from Re Li_2(x) by at most 2.13e-20 (LDBL_DIG <= 18) / 1.2e-35 (LDBL_DIG > 18) for every real x. (The comment in the source claims 1.03e-38 for the latter; the approximation does not meet this.).',
     'every real x', CONT, ['src/cpp/Li2.cpp:long double Li2(long double)'])
prop('Real trilogarithm is accurate for every real argument',
     'With exact elementary operations Li3(x) differs from Re Li_3(x) by at most a few 1e-16 (absolute, relative to the size of the logarithmic terms for large |x|) for every real x.',
     'every real x', CONT, ['src/cpp/Li3.cpp:Li3(double)', 'src/cpp/Li3.cpp:li3_neg', 'src/cpp/Li3.cpp:li3_pos'])
prop('Real Li4 is accurate for every real argument',
     'With exact elementary operations Li4(x) differs from Re Li_4(x) by at most a few 1e-16 (relative to the size of the logarithmic terms for large |x|) for every real x.',
     'every real x', CONT, ['src/cpp/Li4.cpp:Li4(double)', 'src/cpp/Li4.cpp:li4_neg', 'src/cpp/Li4.cpp:li4_half', 'src/cpp/Li4.cpp:li4_mid', 'src/cpp/Li4.cpp:li4_one'])
prop('Clausen functions Cl1..Cl6 (double) are accurate on the fundamental domain',
     'With exact elementary operations Cl1(x),...,Cl6(x) differ from Cl_1,...,Cl_6 by at most a few 1e-16 for every x in [-2 pi, 2 pi].',
     'every real x of the stated interval', CONT,
     ['src/cpp/Cl1.cpp', 'src/cpp/Cl2.cpp', 'src/cpp/Cl3.cpp', 'src/cpp/Cl4.cpp', 'src/cpp/Cl5.cpp', 'src/cpp/Cl6.cpp'])
prop('Clausen functions Cl2..Cl6 (long double) are accurate on the fundamental domain',
     'As C13 for the long double overloads with their (smaller) documented errors.',
     'every real x of the stated interval', CONT,
     ['src/cpp/Cl2.cpp', 'src/cpp/Cl3.cpp', 'src/cpp/Cl4.cpp', 'src/cpp/Cl5.cpp', 'src/cpp/Cl6.cpp'])
prop('Cl(n,x) computes the Clausen function of every order',
     'Cl(n,x) is NaN for n < 1, the dedicated routine for n=1..6, and for n >= 7 (closed expansion for n=7..9, truncated series for n >= 10) it differs from Cl_n(x) by at most a few 1e-16.',
     'every n >= 1 representable, every real x in [-2 pi, 2 pi]', CONT + ' Moreover n ranges over 2^63 orders.',
     ['src/cpp/Cl.cpp:Cl', 'src/cpp/Cl.cpp:pcal', 'src/cpp/Cl.cpp:ncal', 'src/cpp/Cl.cpp:nsum', 'src/cpp/Cl.cpp:cl_series'])
prop('Sl(n,x) computes the Glaisher-Clausen function of every order',
     'Sl(n,x) is NaN for n < 1; for n=1..25 the hard-coded polynomials and for n >= 26 the truncated series differ from Sl_n(x) by at most a few 1e-16.',
     'every n >= 1 representable, every real x in [-2 pi, 2 pi]', CONT + ' Moreover n ranges over 2^63 orders.',
     ['src/cpp/Sl.cpp:Sl', 'src/cpp/Sl.cpp:sl_series'])
# ---- complex
prop('Complex dilogarithm is accurate on the whole plane',
     'With exact elementary operations the complex Li2(z) (float, double, long double) differs from Li_2(z) by a bound at the level of the respective precision, for every complex z, with the standard value on the branch cut.',
     'every complex z', CONT, ['src/cpp/Li2.cpp:Li2(std::complex)'])
prop('Complex Li3, Li4, Li5, Li6 are accurate on the whole plane',
     'With exact elementary operations the complex Li3..Li6 differ from Li_n(z) by a bound at the level of double precision relative to the logarithmic growth, for every complex z.',
     'every complex z', CONT, ['src/cpp/Li3.cpp', 'src/cpp/Li4.cpp', 'src/cpp/Li5.cpp', 'src/cpp/Li6.cpp'])
prop('Li(n,z) dispatches to the right definition for every order',
     'Li(n,z) equals z/(1-z)^2 for n=-1, z/(1-z) for n=0, -log(1-z) for n=1, Li2..Li6 for n=2..6, zeta(n) at z=1, -eta(n) at z=-1, z at z=0.',
     'every int64 n, every complex z', 'Two-parameter infinite domain.', ['src/cpp/Li.cpp:Li'])
prop('Li(n,z) for n >= 7 computes the polylogarithm',
     'For every n >= 7 the value of Li(n,z) is Li_n(z) up to an explicit error: (a) |z| <= 0.75: any stop of the series at term m leaves an error of at most 4 (3/4)^(m+1) and the loop stops only when a term no longer changes the sum; (b) 0.75 < |z| < 1.4: the expansion about 1 stopped after m terms is off by at most 2.6e-15 + 52 u + 0.35 * 0.26^m; (c) |z| >= 1.4: the inversion formula is exact up to 2.9e-16 + 11 u relative to each term log(-z)^k/k! with k < 178, except where a partial sum vanishes (finitely many z, none of them negative). Terms with k >= 178 are dropped, so accuracy is lost for n >= 178 and huge |z|.',
     'every n >= 7, every complex z', 'Two-parameter infinite domain with data-dependent loop lengths.',
     ['src/cpp/Li.cpp:Li_series', 'src/cpp/Li.cpp:Li_unity_pos', 'src/cpp/Li.cpp:Li_rest'])
prop('Li(n,z) for n < -1 computes the polylogarithm and terminates',
     'For every n < -1 the recursion Li(n,z) = 2^(n-1)(Li(n,sqrt z) + Li(n,-sqrt z)) reaches a base case for every z, after a depth bounded in terms of |log |z|| only (at most 11 in the double range), and for -81 <= n <= -2 the value returned (power series, expansion about 1, recursion) is Li_n(z) up to an explicit bound covering literals and truncation. (For larger |n| the tables of the expansion about 1 are exhausted near z = -1: order -169 is off by more than 10 % there.)',
     'every n < -1, every complex z', 'Termination for every input is not observable by testing.',
     ['src/cpp/Li.cpp:Li', 'src/cpp/Li.cpp:Li_unity_neg'])
prop('Every public function terminates, with explicit iteration bounds',
     'Every public function returns after a bounded number of loop iterations for every input: harmonic <= 18, Cl <= 1627, Sl <= 4, Li(n,z) none for -1 <= n <= 6, at most n + 137 in the region of the expansion about 1 in double (n + 1518500263 in any arithmetic), and a bounded recursion depth (<= 11 in double) for n < -1. The only loop without a small bound is the power series: it stops within 130 iterations for real arguments and 1085 for complex ones with |x|+|y| <= 0.49, but its formal limit of 2^63-3 iterations is attained in double precision, e.g. by Li(-2, -0.505859375 + 4.9e-324 i), because the imaginary part of the term never underflows to zero.',
     'every order, every input, including NaN, infinities, subnormals', 'Non-termination (or astronomically long loops) for some input cannot be excluded by running finitely many inputs; a run that takes centuries cannot be observed.',
     ['src/cpp/Li.cpp', 'src/cpp/Cl.cpp', 'src/cpp/Sl.cpp', 'src/cpp/harmonic.cpp'])
prop('Undefined behaviour of Li(n,z), Cl(n,x), Sl(n,x) is confined to extreme orders',
     'Li(n,z) performs no signed overflow, out-of-bounds access or unrepresentable cast for |n| < 2^31, and returns a value; Cl and Sl perform none for any n and x. For n >= 3037000498 and 0.75 < |z| < 1.4 a signed product overflows in Li(n,z).',
     'every order in the range and every argument', 'Two-parameter infinite domain.',
     ['src/cpp/Li.cpp', 'src/cpp/Cl.cpp', 'src/cpp/Sl.cpp'])
# ---- symmetries
prop('Clausen functions have exact parity in floating point',
     'Cl_n(-x) = -Cl_n(x) for even n and Cl_n(-x) = Cl_n(x) for odd n, bit for bit up to the sign of a zero result, for every order and overload.',
     'every floating-point x (finite, infinite, NaN), every n', 'All 2^64 arguments for each of infinitely many n.',
     ['src/cpp/Cl1.cpp', 'src/cpp/Cl2.cpp', 'src/cpp/Cl3.cpp', 'src/cpp/Cl4.cpp', 'src/cpp/Cl5.cpp', 'src/cpp/Cl6.cpp', 'src/cpp/Cl.cpp:Cl'])
prop('Glaisher-Clausen functions have exact parity in floating point',
     'Sl_n(-x) = Sl_n(x) for even n and Sl_n(-x) = -Sl_n(x) for odd n, bit for bit up to the sign of a zero result.',
     'every floating-point x, every n', 'All 2^64 arguments for each of infinitely many n.', ['src/cpp/Sl.cpp:Sl'])
prop('Range reduction lands in [0, pi] in floating point',
     'For every finite floating-point x the range reduction of the Clausen and Glaisher-Clausen functions produces a value in [0, PI], so that the rational approximations and table expansions are evaluated only where they are valid.',
     'every finite double (long double) x', 'The claim depends on rounding at the end points for all 2^64 inputs.',
     ['src/cpp/Cl1.cpp', 'src/cpp/Cl2.cpp', 'src/cpp/Cl.cpp:range_reduce', 'src/cpp/Sl.cpp:range_reduce'])
prop('Complex polylogarithms commute with conjugation off the cut',
     'Li_n(conj z) = conj Li_n(z) for the complex functions for every z that is not on the branch cut (exact in the sense of exact elementary operations).',
     'every complex z with Im z != 0', CONT, ['src/cpp/Li2.cpp', 'src/cpp/Li3.cpp', 'src/cpp/Li4.cpp', 'src/cpp/Li5.cpp', 'src/cpp/Li6.cpp', 'src/cpp/Li.cpp'])
prop('Complex functions on the real axis agree with the real ones',
     'For Im z = 0 the real part of the complex Li2 (float, double, long double), Li3 and Li4 (double; there is no real long double Li3, Li4) is the value of the real function, the imaginary part is that of z (signed zero preserved) for Re z <= 1, and -pi log^(n-1)(Re z)/(n-1)! for Re z > 1.',
     'every real z, both signed zeros as imaginary part', CONT, ['src/cpp/Li2.cpp', 'src/cpp/Li3.cpp', 'src/cpp/Li4.cpp'])
# ---- special values
prop('Special points return the tabulated constants',
     'Li2(0)=0, Li2(1)=pi^2/6, Li2(-1)=-pi^2/12, Li3(1)=zeta(3), Li3(-1)=-3/4 zeta(3), Li3(1/2), Li4(+-1), Li5(+-1), Li6(+-1), Cl_{2k}(0)=Cl_{2k}(pi)=0, Cl_3(0)=zeta(3), Cl_5(0)=zeta(5), zero of either sign is returned unchanged.',
     'all special points of all overloads', 'The constants are checked against the mathematical constants, not against another rounded copy.',
     ['src/cpp/Li2.cpp', 'src/cpp/Li3.cpp', 'src/cpp/Li4.cpp', 'src/cpp/Li5.cpp', 'src/cpp/Li6.cpp', 'src/cpp/Cl2.cpp', 'src/cpp/Cl3.cpp', 'src/cpp/Cl5.cpp'])
prop('NaN and infinite arguments of Li(n,z)',
     'A NaN component gives (NaN, NaN); an infinite component gives (-inf, 0) for every n, which is the limit of Li_n only for n >= 1.',
     'every n, every z with a NaN or infinite component', 'Infinitely many orders.', ['src/cpp/Li.cpp:Li'])
prop('NaN propagates through the real functions',
     'Li2, Li3, Li4, Cl1..Cl6, Cl, Sl return NaN for a NaN argument.',
     'every NaN argument, every order, every libm that propagates NaN', 'All orders n.', ['src/cpp/Li2.cpp', 'src/cpp/Li3.cpp', 'src/cpp/Li4.cpp', 'src/cpp/Cl.cpp', 'src/cpp/Sl.cpp'])
prop('Clausen functions are 2 pi periodic',
     'The value depends on x only through the reduced argument: for x >= 0 and every natural m, F(x + m*PI2) = F(x) where PI2 is the floating-point 2*PI used by fmod.',
     'every x and every multiple', CONT, ['src/cpp/Cl1.cpp', 'src/cpp/Cl.cpp', 'src/cpp/Sl.cpp'])
prop('Complex Li2 selects its expansion inside the domain of convergence',
     'For every z the argument u of the Bernoulli-type series satisfies |u| < pi (well inside radius 2 pi).',
     'every complex z', CONT, ['src/cpp/Li2.cpp:Li2(std::complex)'])
prop('Denominators of the rational approximations never vanish',
     'On the interval where each rational approximation p/q is used, q is bounded away from zero, so no spurious pole or division by zero occurs.',
     'every x in the interval of each approximation', CONT, ['src/cpp/Li2.cpp', 'src/cpp/Li3.cpp', 'src/cpp/Li4.cpp', 'src/cpp/Cl2.cpp', 'src/cpp/Cl3.cpp', 'src/cpp/Cl4.cpp', 'src/cpp/Cl5.cpp', 'src/cpp/Cl6.cpp'])
# ---- end-to-end accuracy in IEEE arithmetic
prop('Real Li2 is accurate in floating-point arithmetic, rounding errors included',
     'For every finite argument x, Li2(x) as computed (every operation rounded, literals rounded) is finite and differs from Re Li2(x) by at most C*u*(1 + log(1+|x|)^2), where u is the unit roundoff of the format: C = 71 (float), 118 (double), 103 (x87 long double), 1011 (quadruple long double), provided log and log1p of the C library have relative error at most 2u+u^2.',
     'every finite floating-point x of each format, every C library with the stated accuracy of log and log1p', 'The number of floating-point arguments is astronomically large and the reference value is a real number.',
     ['src/cpp/Li2.cpp:Li2(float)', 'src/cpp/Li2.cpp:Li2(double)', 'src/cpp/Li2.cpp:Li2(long double)'])
# ---- C and Fortran ports
prop('The C port returns the same values as the C++ library, real functions',
     'li2f, li2, li3, li4, cl2, cl2l, cl5, cl5l, cl6, cl6l of the C library return bit for bit what Li2, Li3, Li4, Cl2, Cl5, Cl6 of the C++ library return, whatever the arithmetic.',
     'every argument, every floating-point format, every C library', CONT, ['src/c/Li2.c', 'src/c/Li3.c', 'src/c/Li4.c', 'src/c/Cl2.c', 'src/c/Cl5.c', 'src/c/Cl6.c'])
prop('The other functions of the C port agree with the C++ library and with the mathematical function, up to the error of the constant pi',
     'cl3, cl4 (and long double), li2l, cli2f, cli2, cli2l, cli3, cli4 have the value of the C++ function; cli3l, cli4l, cli5, cli5l, cli6, cli6l too, except for real 1 < z < e, where the imaginary part differs by exactly log(z)^(n-1)/(n-1)! times the error of the literal for pi. Every function of the C port is within the stated distance of the mathematical function.',
     'every real or complex argument', CONT, ['src/c/Li2.c', 'src/c/Li3.c', 'src/c/Li4.c', 'src/c/Li5.c', 'src/c/Li6.c', 'src/c/Cl2.c', 'src/c/Cl3.c', 'src/c/Cl4.c', 'src/c/Cl5.c', 'src/c/Cl6.c', 'src/c/log.c'])
prop('The functions of the Fortran port approximate the mathematical functions',
     'dli2, dli3, dli4, dcl2..dcl6, cdli2..cdli6 are within the stated distance of Li_n, Cl_n; dli3, dli4, cdli3, dcl2..dcl6 have the value of the C++ function.',
     'every real or complex argument', CONT, ['src/fortran/Li2.f90', 'src/fortran/Li3.f90', 'src/fortran/Li4.f90', 'src/fortran/Li5.f90', 'src/fortran/Li6.f90', 'src/fortran/Cl2.f90', 'src/fortran/Cl3.f90', 'src/fortran/Cl4.f90', 'src/fortran/Cl5.f90', 'src/fortran/Cl6.f90'])
prop('Side effects of the Fortran port on the caller',
     'dcl2..dcl6 overwrite the variable passed by the caller with the reduced argument (a second call with the same variable returns a value of the opposite sign for even order and -PI <= x < 0); dli4 overwrites it with 1/x exactly when x < -1 or not x <= 1 (a second call returns Li4(1/x)); cdli2(NaN+0i) returns without assigning a result.',
     'every argument', 'Tests pass literals or fresh variables and never look at the argument after the call.', ['src/fortran/Cl2.f90', 'src/fortran/Cl3.f90', 'src/fortran/Cl4.f90', 'src/fortran/Cl5.f90', 'src/fortran/Cl6.f90', 'src/fortran/Li4.f90', 'src/fortran/Li2.f90'])
prop('The Clausen functions Cl2..Cl6 are accurate in floating-point arithmetic, rounding errors included',
     'For every finite argument x, Cl_n(x), 2<=n<=6, as computed (range reduction, every operation and every literal rounded) is finite and within (E_n + c_n|x|) u of the Clausen function, u the unit roundoff of the format; for |x| <= 3.14 within E_n u with no growth. double: E = 41, 25, 38, 22, 27 for n = 2..6; x87 long double: 203, 12121, 1516, 12121, 50501; quadruple long double Cl2: 203. The growth c_n|x| is the error of the stored constant 2*PI: c = 3 for n >= 3, 78 (double) and 132 (long double) for n = 2. Provided log has relative error at most 2u+u^2.',
     'every finite floating-point x of each format, every C library with the stated accuracy of log', 'The number of floating-point arguments is astronomically large and the reference value is a real number; tests sample a few arguments in one period.',
     ['src/cpp/Cl2.cpp', 'src/cpp/Cl3.cpp', 'src/cpp/Cl4.cpp', 'src/cpp/Cl5.cpp', 'src/cpp/Cl6.cpp', 'src/c/Cl2.c', 'src/c/Cl5.c', 'src/c/Cl6.c'])
prop('Real Li3 and Li4 are accurate in floating-point arithmetic, rounding errors included',
     'For every finite double x, Li3(x) and Li4(x) as computed (every operation and literal rounded) are finite and differ from Re Li_n(x) by at most C*u*(1 + log(1+|x|)^n), u = 2^-53: C = 150 for Li3, 1500 for Li4 (190 when neither x nor 1/x is in [1/2, 0.8]); for |x| <= 1 the error is relative to |x| up to underflow: 215u|x| (17u|x| for x <= 0) for Li3, 2602u|x| (50u|x| off [1/2, 0.8]) for Li4. Provided log and log1p have relative error at most 2u+u^2.',
     'every finite double x, every C library with the stated accuracy of log and log1p', 'The number of floating-point arguments is astronomically large and the reference value is a real number.',
     ['src/cpp/Li3.cpp:Li3(double)', 'src/cpp/Li4.cpp:Li4(double)', 'src/c/Li3.c', 'src/c/Li4.c'])
prop('Small arguments: complex Li5, Li6 keep relative accuracy in C++, the C and Fortran ports lose it',
     'For every double 0 < x <= 2^-55 and a zero imaginary part, Li5 and Li6 of the C++ library have relative error at most 12*2^-53, whereas cli5, cli6 of the C port and cdli5, cdli6 of the Fortran port return exactly zero although Li_n(x) >= x > 0.',
     'every double 0 < x <= 2^-55, either sign of the zero imaginary part, every C library with accurate log, log1p and the exact cases of Annex F',
     'Holds at some 4e18 arguments; the tests of the ports compare absolute errors and do not notice.', ['src/cpp/Li5.cpp', 'src/cpp/Li6.cpp', 'src/c/Li5.c', 'src/c/Li6.c', 'src/fortran/Li5.f90', 'src/fortran/Li6.f90'])
prop('Just above the branch cut complex Li5, Li6 return the value on the cut',
     'For doubles 2 <= x <= 5/2 and y > 0 with y <= 2^-1075 x, Li5(x+iy) and Li6(x+iy) are bit for bit Li5(x+0i) and Li6(x+0i), although the mathematical function jumps there by pi log(x)^(n-1)/(n-1)!; so at one of the two arguments the error is at least half the jump, whatever the value returned.',
     'every such pair of doubles, every C library that rounds hypot and atan2 correctly in the cases concerned', 'The arguments are subnormal distances from a cut; no test visits them and the reference value is a real number.',
     ['src/cpp/Li5.cpp', 'src/cpp/Li6.cpp'])
prop('Complex Li3, Li4, Li5, Li6 are accurate in floating point, rounding included',
     'For every complex argument x+iy off the real axis with |x|, |y| <= 2^300 and |y| >= 2^-300, both parts of Li3, Li4, Li5, Li6 (double and long double) are finite and the value returned is within c*max(1, |log(-z)|^n) of Li_n(z), where c is 1.5e-13..1.7e-13 (double), 1.2e-16..2.1e-16 (x87 long double), 2e-31..3.8e-31 (binary128 long double), with every literal and every operation rounded.',
     'every pair of floating-point numbers in the stated range, every C library whose log, hypot, atan2 err by at most one unit in the last place and whose complex division errs by at most four',
     'About 2^127 arguments per precision; the branch conditions are themselves evaluated with rounding and may differ from the exact ones.',
     ['src/cpp/Li3.cpp', 'src/cpp/Li4.cpp', 'src/cpp/Li5.cpp', 'src/cpp/Li6.cpp', 'src/cpp/log.hpp', 'src/cpp/horner.hpp'])
prop('Complex Li2 is accurate in floating point, rounding included',
     'For every complex argument z = x+iy off the real axis with |x|, |y| <= 2^300 and |y| >= 2^-300, both parts of Li2(z) (double and long double) are finite and the value returned is within c*max(1, |log(-z)|^2) of Li2(z), where c is 3e-14 (double), 1.7e-17 (x87 long double), 2.6e-32 (binary128 long double), with every literal and every operation rounded and the branch chosen by the rounded comparisons.',
     'every pair of floating-point numbers in the stated range, every C library whose log, log1p, hypot, atan2 err by at most one unit in the last place and whose complex division errs by at most four',
     'About 2^127 arguments per precision; the five branches are selected by rounded comparisons that may differ from the exact ones, and near z = 1 the series argument and its logarithm both degenerate.',
     ['src/cpp/Li2.cpp', 'src/cpp/log.hpp', 'src/cpp/horner.hpp'])
prop('The complex polylogarithms of the C and Fortran ports are accurate in floating point, rounding included',
     'For every complex argument z = x+iy off the real axis with |x|, |y| <= 2^300 and |y| >= 2^-300, cli2..cli6, cli2l..cli6l (C) and cdli2..cdli6 (Fortran) return finite parts within c*max(1, |log(-z)|^n) of Li_n(z), where c is 3e-14 for n = 2 and at most 1.8e-13 for n = 3..6 in double, at most 9e-17 in x87 long double and at most 1.4e-31 in binary128 long double, although the ports evaluate the series, the logarithms and the products in a different order from the C++ code and from each other.',
     'every pair of floating-point numbers in the stated range, every C or Fortran library whose log, log1p, hypot, atan2 err by at most one unit in the last place and whose complex division errs by at most four',
     'About 2^127 arguments per function and precision; the ports are not bit-equal to the C++ functions, so agreement with them on samples does not carry over.',
     ['src/c/Li2.c', 'src/c/Li3.c', 'src/c/Li4.c', 'src/c/Li5.c', 'src/c/Li6.c', 'src/c/log.c', 'src/fortran/Li2.f90', 'src/fortran/Li3.f90', 'src/fortran/Li4.f90', 'src/fortran/Li5.f90', 'src/fortran/Li6.f90', 'src/fortran/log.f90'])
prop('The Glaisher-Clausen functions Sl(n, x) are accurate in floating-point arithmetic, rounding errors included',
     'For every finite double x and every order 3 <= n <= 25, Sl(n, x) as computed (range reduction, every operation and every literal rounded) is finite and within (77 + 8/3 |x|) u of Sl_n(x), u = 2^-53, and within 61 u for |x| <= 3.14; n = 2: (66 + 16/3 |x|) u and 34 u; n = 1 (discontinuous at multiples of 2 pi): within 16 u for 0 < |x| <= 6.28; odd n at zero: exactly zero. The growth with |x| is the error of the stored constant 2*PI.',
     'every finite double x, every order n = 1..25, every C library', 'There are 2^64 arguments per order and the reference value is a real number; the tests sample one period.',
     ['src/cpp/Sl.cpp:Sl', 'src/cpp/Sl.cpp:range_reduce'])
prop('The high-order Clausen and Glaisher-Clausen functions are accurate in floating-point arithmetic, rounding errors included',
     'For every finite double x and every order n that fits into a signed 64-bit integer: if n >= 26, Sl(n, x) as computed (range reduction, number of terms computed with pow, trigonometric recurrence, every operation and literal rounded) is finite and within (24 + 8/3 |x|) u of Sl_n(x), u = 2^-53, and within 8 u for |x| <= 3.14; if n >= 10, Cl(n, x) is finite and within (84 + 8/3 |x|) u of Cl_n(x), and within 68 u for |x| <= 3.14.',
     'every finite double x, every order 10 <= n < 2^63 (Cl) or 26 <= n < 2^63 (Sl), every C library whose sin, cos err by at most two units of 2^-53 on [0, 3.15] and whose pow has relative error two units', 'Unboundedly many orders and 2^64 arguments per order; the number of summed terms is itself the result of rounded arithmetic.',
     ['src/cpp/Sl.cpp:Sl', 'src/cpp/Cl.cpp:Cl'])
prop('The Clausen functions of orders 7, 8 and 9 are accurate in floating-point arithmetic at every argument but two',
     'For n = 7, 8, 9 and every finite double x other than +-2^-1074, Cl(n, x) as computed (range reduction, logarithmic term with pow, factorials, binomial sum over zeta values, Bernoulli series; every operation and literal rounded) is finite and within (7517 + 8/3 |x|) u of Cl_n(x), u = 2^-53, and within 7501 u for |x| <= 3.14. At x = +-2^-1074 the result is NaN, and Cl(1, x) is +infinity there.',
     'every finite double x, n = 7, 8, 9, every C library whose log errs by at most two units, whose sin is the identity up to 2^-30 and errs by at most two units up to 1.6, and whose pow errs by two units plus 2^-1074', 'There are 2^64 arguments per order; the two exceptional ones are at the very edge of the subnormal range, where no sampling test lands.',
     ['src/cpp/Cl.cpp:Cl', 'src/cpp/Cl1.cpp:Cl1', 'src/cpp/Cl.cpp:pcal', 'src/cpp/Cl.cpp:nsum'])
if __name__ == '__main__':
    out = os.path.join(os.path.dirname(os.path.abspath(__file__)), '../properties.jsonl')
    with open(out, 'w') as f:
        for p in P: f.write(json.dumps(p, ensure_ascii=False) + '\n')
    print(len(P))
