{
 "claims": [
  {
   "property": "C01",
   "status": "proved",
   "theorems": [
    "Polylog.C01_pos",
    "Polylog.C01_zero",
    "Polylog.C01_one",
    "Polylog.C01_one_pole",
    "Polylog.C01_neg_even",
    "Polylog.C01_neg_odd",
    "Polylog.C01_overflow"
   ],
   "note": "exact elementary operations, every literal within relative u of its decimal value; table entries certified against certified 41-digit zeta values and exact Bernoulli numbers"
  },
  {
   "property": "C02",
   "status": "proved",
   "theorems": [
    "Polylog.C02_pos",
    "Polylog.C02_big",
    "Polylog.C02_zeta_pos",
    "Polylog.C02_zero",
    "Polylog.C02_neg_even",
    "Polylog.C02_neg_odd",
    "Polylog.C02_overflow",
    "Polylog.C02_polylog_odd",
    "Polylog.C02_polylog_even"
   ],
   "note": ""
  },
  {
   "property": "C03",
   "status": "proved",
   "theorems": [
    "Polylog.C03_neg",
    "Polylog.C03_table",
    "Polylog.C03_real",
    "Polylog.C03_tail",
    "Polylog.C03_tail_sharp"
   ],
   "note": ""
  },
  {
   "property": "C04",
   "status": "proved",
   "theorems": [
    "Polylog.C04_nonpos",
    "Polylog.C04_small",
    "Polylog.C04_harmonic",
    "Polylog.C04_dec",
    "Polylog.C04_binary64",
    "Polylog.C04_digamma"
   ],
   "note": "exact elementary operations; source literals: error <= 8e-19 for every n >= 1"
  },
  {
   "property": "C05",
   "status": "proved",
   "theorems": [
    "Polylog.C05_zeta",
    "Polylog.C05_neg_eta",
    "Polylog.C05_zeta_fault",
    "Polylog.C05_inv_fac",
    "Polylog.C05_harmonic",
    "Polylog.C05_harmonic_fault"
   ],
   "note": ""
  },
  {
   "property": "C06",
   "status": "proved",
   "theorems": [
    "Polylog.C06_horner",
    "Polylog.C06_hornerC",
    "Polylog.C06_hornerC_last"
   ],
   "note": ""
  },
  {
   "property": "C07",
   "status": "proved",
   "theorems": [
    "Polylog.C07_log1p",
    "Polylog.C07_pos_log",
    "Polylog.C07_clog"
   ],
   "note": ""
  },
  {
   "property": "C08",
   "status": "proved",
   "theorems": [
    "Polylog.C08_Li2f",
    "Polylog.C08_Li2f_half"
   ],
   "note": "for decimal literals (u = 0) the bound is 1.3e-7"
  },
  {
   "property": "C09",
   "status": "proved",
   "theorems": [
    "Polylog.C09_Li2d",
    "Polylog.C09_Li2d_half"
   ],
   "note": "u = 0: 1.2e-16, 2.94e-17 on [0,1/2]"
  },
  {
   "property": "C10",
   "status": "proved",
   "theorems": [
    "Polylog.C10_Li2l18",
    "Polylog.C10_Li2l36",
    "Polylog.C10_Li2l36_doc_not_met"
   ],
   "note": ""
  },
  {
   "property": "C11",
   "status": "proved",
   "theorems": [
    "Polylog.C11_Li3d"
   ],
   "note": "u = 0: 1.2e-16 + 9e-17 log(max(1,|x|))"
  },
  {
   "property": "C12",
   "status": "proved",
   "theorems": [
    "Polylog.C12_Li4d"
   ],
   "note": "u = 0: 4e-17 + 4.4e-17 log(max(1,|x|))^2"
  },
  {
   "property": "C13",
   "status": "proved",
   "theorems": [
    "Polylog.C13_Cl1",
    "Polylog.C13_Cl1_exact",
    "Polylog.C13_Cl2",
    "Polylog.C13_Cl2_dec",
    "Polylog.C13_Cl2_binary64",
    "Polylog.C13_Cl3",
    "Polylog.C13_Cl3_dec",
    "Polylog.C13_Cl3_binary64",
    "Polylog.C13_Cl4",
    "Polylog.C13_Cl4_dec",
    "Polylog.C13_Cl4_binary64",
    "Polylog.C13_Cl5",
    "Polylog.C13_Cl5_dec",
    "Polylog.C13_Cl5_binary64",
    "Polylog.C13_Cl6",
    "Polylog.C13_Cl6_dec",
    "Polylog.C13_Cl6_binary64"
   ],
   "note": "decimal literals, |x| <= 2 pi: 1.1e-17 (Cl2), 5.3e-17 (Cl3), 4.4e-17 (Cl4), 3.1e-17 (Cl5), 4.2e-16 (Cl6); literals stored in binary64: every real x; Cl1: relative to the distance from its pole"
  },
  {
   "property": "C14",
   "status": "proved",
   "theorems": [
    "Polylog.C14_Cl2",
    "Polylog.C14_Cl2_dec",
    "Polylog.C14_Cl2_binary64",
    "Polylog.C14_Cl2_x87ext",
    "Polylog.C14_Cl2_binary128",
    "Polylog.C14_Cl3",
    "Polylog.C14_Cl3_dec",
    "Polylog.C14_Cl3_binary64",
    "Polylog.C14_Cl3_x87ext",
    "Polylog.C14_Cl3_binary128",
    "Polylog.C14_Cl4",
    "Polylog.C14_Cl4_dec",
    "Polylog.C14_Cl4_binary64",
    "Polylog.C14_Cl4_x87ext",
    "Polylog.C14_Cl4_binary128",
    "Polylog.C14_Cl5",
    "Polylog.C14_Cl5_dec",
    "Polylog.C14_Cl5_binary64",
    "Polylog.C14_Cl5_x87ext",
    "Polylog.C14_Cl5_binary128",
    "Polylog.C14_Cl6",
    "Polylog.C14_Cl6_dec",
    "Polylog.C14_Cl6_binary64",
    "Polylog.C14_Cl6_x87ext",
    "Polylog.C14_Cl6_binary128"
   ],
   "note": "decimal literals, |x| <= 2 pi: 8.8e-34 (Cl2), 1.8e-26 (Cl3), 2.8e-26 (Cl4), 3.2e-26 (Cl5), 3.1e-26 (Cl6), i.e. far below x87 epsilon but not quadruple precision for Cl3..Cl6"
  },
  {
   "property": "C15",
   "status": "proved",
   "theorems": [
    "Polylog.C15_nan",
    "Polylog.C15_dedicated",
    "Polylog.C15_Cl",
    "Polylog.C15_dec",
    "Polylog.C15_Cl1_dec",
    "Polylog.C15_binary64"
   ],
   "note": "exact elementary operations, every order; |x| <= 2 pi with the literals of the source text: 9.3e-16; order 1 (logarithmic pole): exact on 0 < |x| <= pi, C13_Cl1 elsewhere"
  },
  {
   "property": "C16",
   "status": "proved",
   "theorems": [
    "Polylog.C16_nan",
    "Polylog.C16_Sl",
    "Polylog.C16_Sl2",
    "Polylog.C16_dec",
    "Polylog.C16_binary64",
    "Polylog.C16_Sl2_binary64",
    "Polylog.C16_Sl1_binary64"
   ],
   "note": "exact elementary operations, every order n and every real x"
  },
  {
   "property": "C17",
   "status": "proved",
   "theorems": [
    "Polylog.C17_Li2f",
    "Polylog.C17_Li2d",
    "Polylog.C17_Li2l18",
    "Polylog.C17_Li2l36"
   ],
   "note": ""
  },
  {
   "property": "C18",
   "status": "proved",
   "theorems": [
    "Polylog.C18_Li3d",
    "Polylog.C18_Li3l18",
    "Polylog.C18_Li3l36",
    "Polylog.C18_Li4d",
    "Polylog.C18_Li4l18",
    "Polylog.C18_Li4l36",
    "Polylog.C18_Li5d",
    "Polylog.C18_Li5l18",
    "Polylog.C18_Li5l36",
    "Polylog.C18_Li6d",
    "Polylog.C18_Li6l18",
    "Polylog.C18_Li6l36"
   ],
   "note": "u = relative error of the literals"
  },
  {
   "property": "C19",
   "status": "proved",
   "theorems": [
    "Polylog.C19_dedicated",
    "Polylog.C19_zero",
    "Polylog.C19_one",
    "Polylog.C19_mone",
    "Polylog.C19_order_m1",
    "Polylog.C19_order_0",
    "Polylog.C19_order_1"
   ],
   "note": ""
  },
  {
   "property": "C20",
   "status": "proved",
   "theorems": [
    "Polylog.C20_series_stop",
    "Polylog.C20_series",
    "Polylog.C20_unity",
    "Polylog.C20_unity_result",
    "Polylog.C20_inversion",
    "Polylog.C20_inversion_exceptions",
    "Polylog.C20_inversion_neg",
    "Polylog.C20_inversion_moderate",
    "Polylog.C20_dropped_terms"
   ],
   "note": "exact elementary operations, every literal within relative u of its decimal value; C20_dropped_terms is the proved limit: for even n >= 232 and z = -exp 230 the value returned is less than a tenth of Li_n(z)"
  },
  {
   "property": "C21",
   "status": "proved",
   "theorems": [
    "Polylog.C21_series_stop",
    "Polylog.C21_series",
    "Polylog.C21_unity",
    "Polylog.C21_unity_result",
    "Polylog.C21_Li",
    "Polylog.C21_depth",
    "Polylog.C21_depth_double",
    "Polylog.C21_value_double",
    "Polylog.C21_tables_exhausted"
   ],
   "note": "exact elementary operations, every literal within relative u of its decimal value; C21_tables_exhausted is the proved limit for large |n|"
  },
  {
   "property": "C22",
   "status": "proved",
   "theorems": [
    "Polylog.C22_harmonic",
    "Polylog.C22_unity_pos",
    "Polylog.C22_series",
    "Polylog.C22_rest",
    "Polylog.C22_unity_neg",
    "Polylog.C22_Cl_small",
    "Polylog.C22_Cl_large",
    "Polylog.C22_Sl",
    "Polylog.C22_ClSl_IEEE",
    "Polylog.C22_Li_small",
    "Polylog.C22_Li_pos",
    "Polylog.C22_unity_pos_IEEE",
    "Polylog.C22_Li_neg",
    "Polylog.C22_depth_IEEE",
    "Polylog.C22_Li_neg_total",
    "Polylog.C22_series_real",
    "Polylog.C22_series_small",
    "Polylog.C22_series_hang",
    "Polylog.C22_Li_hang",
    "Polylog.LiC_erase",
    "Polylog.ClC_erase",
    "Polylog.SlC_erase"
   ],
   "note": "instrumented twins of the functions, proved to compute the same value, count every loop iteration; the recursion of Li(n,z), n < -1, has depth <= 11 for every binary64 argument. The worst-case bound of the series loop (2^63-3) is attained: C22_Li_hang proves that Li(-2, -0.505859375 + 4.9e-324 i) executes 2^63-3 iterations; C22_series_real / C22_series_small give 130 / 1085 iterations for real and for small complex arguments"
  },
  {
   "property": "C23",
   "status": "proved",
   "theorems": [
    "Polylog.C23_Cl_small",
    "Polylog.C23_Cl_large",
    "Polylog.C23_Sl_small",
    "Polylog.C23_Sl_large",
    "Polylog.C23_ClSl_real",
    "Polylog.C23_ClSl_IEEE",
    "Polylog.C23_Li_pos",
    "Polylog.C23_Li_neg",
    "Polylog.C23_Li_unity_any",
    "Polylog.C23_Li_pos_IEEE",
    "Polylog.C23_Li",
    "Polylog.C23_Li_overflow"
   ],
   "note": "Cl, Sl: all orders and arguments (the cast of ceil(pow(eps,-1/n)) needs a sane pow). Li: C23_Li is the full claim in binary64 (all orders INT64_MIN+8 < n <= 3037000257, every argument) for a C library that meets UnityLib (satisfiable: unityLibEx_ok); C23_Li_pos, C23_Li_neg, C23_Li_unity_any hold without the contract. C23_Li_overflow is the proved limit: undefined behaviour for every n >= 3037000498 near |z| = 1"
  },
  {
   "property": "C24",
   "status": "proved",
   "theorems": [
    "Polylog.C24_Cl1d",
    "Polylog.C24_Cl2d",
    "Polylog.C24_Cl2l",
    "Polylog.C24_Cl3d",
    "Polylog.C24_Cl3l",
    "Polylog.C24_Cl4d",
    "Polylog.C24_Cl4l",
    "Polylog.C24_Cl5d",
    "Polylog.C24_Cl5l",
    "Polylog.C24_Cl6d",
    "Polylog.C24_Cl6l",
    "Polylog.C24_Cl_odd",
    "Polylog.C24_Cl_even"
   ],
   "note": "IEEE semantics, every format, every C library; for Cl(n,x) with n >= 7 the library must propagate NaN (even n) and agree at the two zeros (odd n)"
  },
  {
   "property": "C25",
   "status": "proved",
   "theorems": [
    "Polylog.C25_Sl_odd",
    "Polylog.C25_Sl_even"
   ],
   "note": "IEEE semantics, every format, every C library that propagates NaN / agrees at the two zeros"
  },
  {
   "property": "C26",
   "status": "proved",
   "theorems": [
    "Polylog.C26_double_binary64",
    "Polylog.C26_longdouble_binary64",
    "Polylog.C26_longdouble_x87ext",
    "Polylog.C26_longdouble_binary128",
    "Polylog.C26_Cl_Sl"
   ],
   "note": "IEEE semantics"
  },
  {
   "property": "C27",
   "status": "proved",
   "theorems": [
    "Polylog.C27_Li2",
    "Polylog.C27_Li3456",
    "Polylog.C27_Li"
   ],
   "note": "exact elementary operations, every choice of literals; C27_Li covers the general Li(n,z) for every integer n, faults included"
  },
  {
   "property": "C28",
   "status": "proved",
   "theorems": [
    "Polylog.C28_Li2f",
    "Polylog.C28_Li2d",
    "Polylog.C28_Li2l18",
    "Polylog.C28_Li2l36",
    "Polylog.C28_Li3d",
    "Polylog.C28_Li4d",
    "Polylog.C28_Li2_im",
    "Polylog.C28_Li34_im"
   ],
   "note": "the first six in IEEE arithmetic, every format and C library, bit for bit; the last two state the imaginary part on the cut against the mathematical value"
  },
  {
   "property": "C29",
   "status": "proved",
   "theorems": [
    "Polylog.C29_zero",
    "Polylog.C29_zero_complex",
    "Polylog.C29_Li2f",
    "Polylog.C29_Li2d",
    "Polylog.C29_Li2l18",
    "Polylog.C29_Li2l36",
    "Polylog.C29_Li3d",
    "Polylog.C29_Li4d",
    "Polylog.C29_cLi3l18",
    "Polylog.C29_cLi3l36",
    "Polylog.C29_cLi4l18",
    "Polylog.C29_cLi4l36",
    "Polylog.C29_cLi5d",
    "Polylog.C29_cLi5l18",
    "Polylog.C29_cLi5l36",
    "Polylog.C29_cLi6d",
    "Polylog.C29_cLi6l18",
    "Polylog.C29_cLi6l36",
    "Polylog.C29_Cl_even_zero",
    "Polylog.C29_Cl1_zero",
    "Polylog.C29_Cl_odd_zero",
    "Polylog.C29_Cl_even_pi"
   ],
   "note": "IEEE arithmetic in the format of the overload"
  },
  {
   "property": "C30",
   "status": "proved",
   "theorems": [
    "Polylog.C30_nan",
    "Polylog.C30_inf"
   ],
   "note": "in every arithmetic F"
  },
  {
   "property": "C31",
   "status": "proved",
   "theorems": [
    "Polylog.C31_Li2f",
    "Polylog.C31_Li2d",
    "Polylog.C31_Li2l",
    "Polylog.C31_Li3d",
    "Polylog.C31_Li4d",
    "Polylog.C31_Cl1d",
    "Polylog.C31_Cl2d",
    "Polylog.C31_Cl2l",
    "Polylog.C31_Cl3d",
    "Polylog.C31_Cl3l",
    "Polylog.C31_Cl4d",
    "Polylog.C31_Cl4l",
    "Polylog.C31_Cl5d",
    "Polylog.C31_Cl5l",
    "Polylog.C31_Cl6d",
    "Polylog.C31_Cl6l",
    "Polylog.C31_Cl",
    "Polylog.C31_Sl"
   ],
   "note": "IEEE semantics, every format; Cl(n,NaN), Sl(n,NaN): every value returned is NaN"
  },
  {
   "property": "C32",
   "status": "proved",
   "theorems": [
    "Polylog.C32_Cl1d",
    "Polylog.C32_Cl2d",
    "Polylog.C32_Cl2l",
    "Polylog.C32_Cl3d",
    "Polylog.C32_Cl3l",
    "Polylog.C32_Cl4d",
    "Polylog.C32_Cl4l",
    "Polylog.C32_Cl5d",
    "Polylog.C32_Cl5l",
    "Polylog.C32_Cl6d",
    "Polylog.C32_Cl6l",
    "Polylog.C32_Cl",
    "Polylog.C32_Sl"
   ],
   "note": "IEEE semantics, exact equality; x = -0 excluded (returned unchanged, its translates give +0)"
  },
  {
   "property": "C33",
   "status": "proved",
   "theorems": [
    "Polylog.C33_Li2_argument"
   ],
   "note": ""
  },
  {
   "property": "C34",
   "status": "proved",
   "theorems": [
    "Polylog.C34_Li2",
    "Polylog.C34_Li3",
    "Polylog.C34_Li4",
    "Polylog.C34_Cl2",
    "Polylog.C34_Cl3",
    "Polylog.C34_Cl4",
    "Polylog.C34_Cl5",
    "Polylog.C34_Cl6"
   ],
   "note": "every literal within relative u of its decimal value"
  },
  {
   "property": "C35",
   "status": "proved",
   "theorems": [
    "Polylog.C35_Li2f",
    "Polylog.C35_Li2d",
    "Polylog.C35_Li2l_x87",
    "Polylog.C35_Li2l_quad"
   ],
   "note": "IEEE arithmetic of the format, every operation and literal rounded; library contract: log, log1p with relative error 2u + u^2 (satisfiable: exists_logOK)"
  },
  {
   "property": "C36",
   "status": "proved",
   "theorems": [
    "Polylog.C36_li2f",
    "Polylog.C36_li2",
    "Polylog.C36_li3",
    "Polylog.C36_li4",
    "Polylog.C36_cl2",
    "Polylog.C36_cl2l",
    "Polylog.C36_cl5",
    "Polylog.C36_cl5l",
    "Polylog.C36_cl6",
    "Polylog.C36_cl6l"
   ],
   "note": "every arithmetic, in particular IEEE of every format"
  },
  {
   "property": "C37",
   "status": "proved",
   "theorems": [
    "Polylog.C37_li2l18",
    "Polylog.C37_li2l36",
    "Polylog.C37_cli2f",
    "Polylog.C37_cli2",
    "Polylog.C37_cli2l18",
    "Polylog.C37_cli2l36",
    "Polylog.C37_cli3",
    "Polylog.C37_cli3l18",
    "Polylog.C37_cli3l36",
    "Polylog.C37_cli4",
    "Polylog.C37_cli4l18",
    "Polylog.C37_cli4l36",
    "Polylog.C37_cli5",
    "Polylog.C37_cli5l18",
    "Polylog.C37_cli5l36",
    "Polylog.C37_cli6",
    "Polylog.C37_cli6l18",
    "Polylog.C37_cli6l36",
    "Polylog.C37_cl3",
    "Polylog.C37_cl3l",
    "Polylog.C37_cl4",
    "Polylog.C37_cl4l",
    "Polylog.C37_li2f_accuracy",
    "Polylog.C37_li2_accuracy",
    "Polylog.C37_li2l18_accuracy",
    "Polylog.C37_li2l36_accuracy",
    "Polylog.C37_li3_accuracy",
    "Polylog.C37_li4_accuracy",
    "Polylog.C37_cl2_accuracy",
    "Polylog.C37_cl3_accuracy",
    "Polylog.C37_cl4_accuracy",
    "Polylog.C37_cl5_accuracy",
    "Polylog.C37_cl6_accuracy",
    "Polylog.C37_cl2l_accuracy",
    "Polylog.C37_cl3l_accuracy",
    "Polylog.C37_cl4l_accuracy",
    "Polylog.C37_cl5l_accuracy",
    "Polylog.C37_cl6l_accuracy",
    "Polylog.C37_cli2f_accuracy",
    "Polylog.C37_cli2_accuracy",
    "Polylog.C37_cli2l18_accuracy",
    "Polylog.C37_cli2l36_accuracy",
    "Polylog.C37_cli3_accuracy",
    "Polylog.C37_cli4_accuracy",
    "Polylog.C37_cli3l18_accuracy",
    "Polylog.C37_cli3l36_accuracy",
    "Polylog.C37_cli4l18_accuracy",
    "Polylog.C37_cli4l36_accuracy",
    "Polylog.C37_cli5_accuracy",
    "Polylog.C37_cli5l18_accuracy",
    "Polylog.C37_cli5l36_accuracy",
    "Polylog.C37_cli6_accuracy",
    "Polylog.C37_cli6l18_accuracy",
    "Polylog.C37_cli6l36_accuracy"
   ],
   "note": "exact elementary operations, every literal within relative u of its decimal value"
  },
  {
   "property": "C38",
   "status": "proved",
   "theorems": [
    "Polylog.C38_dcl2",
    "Polylog.C38_dcl4",
    "Polylog.C38_dcl6",
    "Polylog.C38_dcl5",
    "Polylog.C38_dcl3",
    "Polylog.C38_dcl2_dec",
    "Polylog.C38_dcl2_binary64",
    "Polylog.C38_dcl3_dec",
    "Polylog.C38_dcl3_binary64",
    "Polylog.C38_dcl4_dec",
    "Polylog.C38_dcl4_binary64",
    "Polylog.C38_dcl5_dec",
    "Polylog.C38_dcl5_binary64",
    "Polylog.C38_dcl6_dec",
    "Polylog.C38_dcl6_binary64",
    "Polylog.C38_dli2",
    "Polylog.C38_dli3",
    "Polylog.C38_dli4",
    "Polylog.C38_dli3_accuracy",
    "Polylog.C38_dli4_accuracy",
    "Polylog.C38_cdli2",
    "Polylog.C38_cdli3",
    "Polylog.C38_cdli3_accuracy",
    "Polylog.C38_cdli4_axis",
    "Polylog.C38_cdli4",
    "Polylog.C38_cdli5",
    "Polylog.C38_cdli6"
   ],
   "note": "exact elementary operations, every literal within relative u of its decimal value"
  },
  {
   "property": "C39",
   "status": "proved",
   "theorems": [
    "Polylog.C39_dcl_overwrites",
    "Polylog.C39_dcl2_twice",
    "Polylog.C39_dcl4_twice",
    "Polylog.C39_dcl6_twice",
    "Polylog.C39_dli4_overwrites",
    "Polylog.C39_dli4_twice",
    "Polylog.C39_cdli2_unassigned",
    "Polylog.C39_cdli2_nan"
   ],
   "note": "C39_dcl_overwrites, C39_dli4_overwrites, C39_cdli2_unassigned: every arithmetic; C39_cdli2_nan: IEEE; the others: exact elementary operations"
  },
  {
   "property": "C40",
   "status": "proved",
   "theorems": [
    "Polylog.C40_Cl2d",
    "Polylog.C40_Cl3d",
    "Polylog.C40_Cl4d",
    "Polylog.C40_Cl5d",
    "Polylog.C40_Cl6d",
    "Polylog.C40_Cl2l_x87",
    "Polylog.C40_Cl3l_x87",
    "Polylog.C40_Cl4l_x87",
    "Polylog.C40_Cl5l_x87",
    "Polylog.C40_Cl6l_x87",
    "Polylog.C40_Cl2l_quad",
    "Polylog.C40_cl2_C",
    "Polylog.C40_cl5_C",
    "Polylog.C40_cl6_C"
   ],
   "note": "IEEE arithmetic of the format, every operation and literal rounded, every finite argument; library contract: log with relative error 2u + u^2 (satisfiable: exists_logOK)"
  },
  {
   "property": "C41",
   "status": "proved",
   "theorems": [
    "Polylog.C41_Li3d",
    "Polylog.C41_Li4d",
    "Polylog.C41_li3_C",
    "Polylog.C41_li4_C"
   ],
   "note": "IEEE binary64, every operation and literal rounded, every finite argument; library contract: log, log1p with relative error 2u + u^2 (satisfiable: exists_logOK)"
  },
  {
   "property": "C42",
   "status": "proved",
   "theorems": [
    "Polylog.C42_cli5_zero",
    "Polylog.C42_cdli5_zero",
    "Polylog.C42_cli6_zero",
    "Polylog.C42_cdli6_zero",
    "Polylog.C42_Li5d",
    "Polylog.C42_Li6d"
   ],
   "note": "IEEE binary64; library contract TinyLib (satisfiable: exists_tinyLib)"
  },
  {
   "property": "C43",
   "status": "proved",
   "theorems": [
    "Polylog.C43_Li5d",
    "Polylog.C43_Li6d"
   ],
   "note": "IEEE binary64; library contract CutLib (satisfiable: exists_cutLib)"
  },
  {
   "property": "C44",
   "status": "proved",
   "theorems": [
    "Polylog.C44_Li3d_IEEE",
    "Polylog.C44_Li3l18_IEEE",
    "Polylog.C44_Li3l36_IEEE",
    "Polylog.C44_Li4d_IEEE",
    "Polylog.C44_Li4l18_IEEE",
    "Polylog.C44_Li4l36_IEEE",
    "Polylog.C44_Li5d_IEEE",
    "Polylog.C44_Li5l18_IEEE",
    "Polylog.C44_Li5l36_IEEE",
    "Polylog.C44_Li6d_IEEE",
    "Polylog.C44_Li6l18_IEEE",
    "Polylog.C44_Li6l36_IEEE"
   ],
   "note": "IEEE arithmetic of the format, every operation and literal rounded; library contract CxLib (satisfiable: cxLib_exists); |y| >= 2^-300 and parts at most 2^300 (on the real axis: C41, C29, C28)"
  },
  {
   "property": "C45",
   "status": "proved",
   "theorems": [
    "Polylog.C45_Li2d_IEEE",
    "Polylog.C45_Li2l18_IEEE",
    "Polylog.C45_Li2l36_IEEE"
   ],
   "note": "IEEE arithmetic of the format, every operation and literal rounded; library contract CxLib (satisfiable: cxLib_exists); |y| >= 2^-300 and parts at most 2^300; the float overload is not covered"
  },
  {
   "property": "C46",
   "status": "proved",
   "theorems": [
    "Polylog.C46_cli2_IEEE",
    "Polylog.C46_cli3_IEEE",
    "Polylog.C46_cli4_IEEE",
    "Polylog.C46_cli5_IEEE",
    "Polylog.C46_cli6_IEEE",
    "Polylog.C46_cdli2_IEEE",
    "Polylog.C46_cdli3_IEEE",
    "Polylog.C46_cdli4_IEEE",
    "Polylog.C46_cdli5_IEEE",
    "Polylog.C46_cdli6_IEEE",
    "Polylog.C46_cli2l18_IEEE",
    "Polylog.C46_cli2l36_IEEE",
    "Polylog.C46_cli3l18_IEEE",
    "Polylog.C46_cli3l36_IEEE",
    "Polylog.C46_cli4l18_IEEE",
    "Polylog.C46_cli4l36_IEEE",
    "Polylog.C46_cli5l18_IEEE",
    "Polylog.C46_cli5l36_IEEE",
    "Polylog.C46_cli6l18_IEEE",
    "Polylog.C46_cli6l36_IEEE"
   ],
   "note": "same statement and library contract as C44/C45, for the ports; the float functions cli2f are not covered"
  },
  {
   "property": "C47",
   "status": "proved",
   "theorems": [
    "Polylog.C47_Sl",
    "Polylog.C47_Sl2",
    "Polylog.C47_Sl1",
    "Polylog.C47_zero"
   ],
   "note": "IEEE binary64, every operation and literal rounded; no library contract (only fmod, exact); orders n >= 26: C48"
  },
  {
   "property": "C48",
   "status": "proved",
   "theorems": [
    "Polylog.C48_Sl",
    "Polylog.C48_Cl"
   ],
   "note": "IEEE binary64, every operation and literal rounded; library contract TrigOK (sin, cos within 2u on [0, 3.15], pow with relative error 2u + u^2; satisfiable: exists_trigOK); orders below 2^63"
  },
  {
   "property": "C49",
   "status": "proved",
   "theorems": [
    "Polylog.C49_Cl",
    "Polylog.C49_denorm_nan",
    "Polylog.C49_Cl1_denorm"
   ],
   "note": "IEEE binary64, every operation and literal rounded; library contracts MidOK (log, sin, pow; satisfiable: exists_midOK) and DenormLib (special values sin(+0), log(+0), underflowing pow; satisfiable: exists_denormLib)"
  }
 ]
}