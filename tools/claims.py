claim("C03", "proved", ["C03_neg", "C03_table", "C03_real", "C03_tail", "C03_tail_sharp"], "")
claim("C05", "proved", ["C05_zeta", "C05_neg_eta", "C05_zeta_fault", "C05_inv_fac", "C05_harmonic", "C05_harmonic_fault"], "")
claim("C06", "proved", ["C06_horner", "C06_hornerC", "C06_hornerC_last"], "")
claim("C07", "proved", ["C07_log1p", "C07_pos_log", "C07_clog"], "")
claim("C19", "proved", ["C19_dedicated", "C19_zero", "C19_one", "C19_mone", "C19_order_m1", "C19_order_0", "C19_order_1"], "")
claim("C30", "proved", ["C30_nan", "C30_inf"], "in every arithmetic F")
claim("C08", "proved", ["C08_Li2f", "C08_Li2f_half"], "for decimal literals (u = 0) the bound is 1.3e-7")
claim("C09", "proved", ["C09_Li2d", "C09_Li2d_half"], "u = 0: 1.2e-16, 2.94e-17 on [0,1/2]")
claim("C10", "proved", ["C10_Li2l18", "C10_Li2l36", "C10_Li2l36_doc_not_met"], "")
claim("C01", "proved", ["C01_pos", "C01_zero", "C01_one", "C01_one_pole", "C01_neg_even", "C01_neg_odd", "C01_overflow"], "exact elementary operations, every literal within relative u of its decimal value; table entries certified against certified 41-digit zeta values and exact Bernoulli numbers")
claim("C02", "proved", ["C02_pos", "C02_big", "C02_zeta_pos", "C02_zero", "C02_neg_even", "C02_neg_odd", "C02_overflow", "C02_polylog_odd", "C02_polylog_even"], "")
claim("C17", "proved", ["C17_Li2f", "C17_Li2d", "C17_Li2l18", "C17_Li2l36"], "")
claim("C33", "proved", ["C33_Li2_argument"], "")
claim("C24", "proved", ["C24_Cl1d","C24_Cl2d","C24_Cl2l","C24_Cl3d","C24_Cl3l","C24_Cl4d","C24_Cl4l","C24_Cl5d","C24_Cl5l","C24_Cl6d","C24_Cl6l","C24_Cl_odd","C24_Cl_even"], "IEEE semantics, every format, every C library; for Cl(n,x) with n >= 7 the library must propagate NaN (even n) and agree at the two zeros (odd n)")
claim("C25", "proved", ["C25_Sl_odd","C25_Sl_even"], "IEEE semantics, every format, every C library that propagates NaN / agrees at the two zeros")
claim("C26", "proved", ["C26_double_binary64","C26_longdouble_binary64","C26_longdouble_x87ext","C26_longdouble_binary128","C26_Cl_Sl"], "IEEE semantics")
claim("C31", "proved", ["C31_Li2f","C31_Li2d","C31_Li2l","C31_Li3d","C31_Li4d","C31_Cl1d","C31_Cl2d","C31_Cl2l","C31_Cl3d","C31_Cl3l","C31_Cl4d","C31_Cl4l","C31_Cl5d","C31_Cl5l","C31_Cl6d","C31_Cl6l","C31_Cl","C31_Sl"], "IEEE semantics, every format; Cl(n,NaN), Sl(n,NaN): every value returned is NaN")
claim("C32", "proved", ["C32_Cl1d","C32_Cl2d","C32_Cl2l","C32_Cl3d","C32_Cl3l","C32_Cl4d","C32_Cl4l","C32_Cl5d","C32_Cl5l","C32_Cl6d","C32_Cl6l","C32_Cl","C32_Sl"], "IEEE semantics, exact equality; x = -0 excluded (returned unchanged, its translates give +0)")

claim("C18", "proved", ["C18_Li3d", "C18_Li3l18", "C18_Li3l36", "C18_Li4d", "C18_Li4l18", "C18_Li4l36", "C18_Li5d", "C18_Li5l18", "C18_Li5l36", "C18_Li6d", "C18_Li6l18", "C18_Li6l36"], "u = relative error of the literals")
claim("C11", "proved", ["C11_Li3d"], "u = 0: 1.2e-16 + 9e-17 log(max(1,|x|))")
claim("C12", "proved", ["C12_Li4d"], "u = 0: 4e-17 + 4.4e-17 log(max(1,|x|))^2")
claim("C34", "proved", ["C34_Li2", "C34_Li3", "C34_Li4", "C34_Cl2", "C34_Cl3", "C34_Cl4", "C34_Cl5", "C34_Cl6"], "every literal within relative u of its decimal value")
claim("C27", "proved", ["C27_Li2", "C27_Li3456", "C27_Li"], "exact elementary operations, every choice of literals; C27_Li covers the general Li(n,z) for every integer n, faults included")
claim("C28", "proved", ["C28_Li2f", "C28_Li2d", "C28_Li2l18", "C28_Li2l36", "C28_Li3d", "C28_Li4d", "C28_Li2_im", "C28_Li34_im"], "the first six in IEEE arithmetic, every format and C library, bit for bit; the last two state the imaginary part on the cut against the mathematical value")
claim("C29", "proved", ["C29_zero", "C29_zero_complex", "C29_Li2f", "C29_Li2d", "C29_Li2l18", "C29_Li2l36", "C29_Li3d", "C29_Li4d", "C29_cLi3l18", "C29_cLi3l36", "C29_cLi4l18", "C29_cLi4l36", "C29_cLi5d", "C29_cLi5l18", "C29_cLi5l36", "C29_cLi6d", "C29_cLi6l18", "C29_cLi6l36", "C29_Cl_even_zero", "C29_Cl1_zero", "C29_Cl_odd_zero", "C29_Cl_even_pi"], "IEEE arithmetic in the format of the overload")
claim("C13", "proved", ['C13_Cl1', 'C13_Cl1_exact', 'C13_Cl2', 'C13_Cl2_dec', 'C13_Cl2_binary64', 'C13_Cl3', 'C13_Cl3_dec', 'C13_Cl3_binary64', 'C13_Cl4', 'C13_Cl4_dec', 'C13_Cl4_binary64', 'C13_Cl5', 'C13_Cl5_dec', 'C13_Cl5_binary64', 'C13_Cl6', 'C13_Cl6_dec', 'C13_Cl6_binary64'], "decimal literals, |x| <= 2 pi: 1.1e-17 (Cl2), 5.3e-17 (Cl3), 4.4e-17 (Cl4), 3.1e-17 (Cl5), 4.2e-16 (Cl6); literals stored in binary64: every real x; Cl1: relative to the distance from its pole")
claim("C14", "proved", ['C14_Cl2', 'C14_Cl2_dec', 'C14_Cl2_binary64', 'C14_Cl2_x87ext', 'C14_Cl2_binary128', 'C14_Cl3', 'C14_Cl3_dec', 'C14_Cl3_binary64', 'C14_Cl3_x87ext', 'C14_Cl3_binary128', 'C14_Cl4', 'C14_Cl4_dec', 'C14_Cl4_binary64', 'C14_Cl4_x87ext', 'C14_Cl4_binary128', 'C14_Cl5', 'C14_Cl5_dec', 'C14_Cl5_binary64', 'C14_Cl5_x87ext', 'C14_Cl5_binary128', 'C14_Cl6', 'C14_Cl6_dec', 'C14_Cl6_binary64', 'C14_Cl6_x87ext', 'C14_Cl6_binary128'], "decimal literals, |x| <= 2 pi: 8.8e-34 (Cl2), 1.8e-26 (Cl3), 2.8e-26 (Cl4), 3.2e-26 (Cl5), 3.1e-26 (Cl6), i.e. far below x87 epsilon but not quadruple precision for Cl3..Cl6")
claim("C16", "proved", ["C16_nan", "C16_Sl", "C16_Sl2", "C16_dec", "C16_binary64", "C16_Sl2_binary64", "C16_Sl1_binary64"], "exact elementary operations, every order n and every real x")
claim("C15", "proved", ["C15_nan", "C15_dedicated", "C15_Cl", "C15_dec", "C15_Cl1_dec", "C15_binary64"], "exact elementary operations, every order; |x| <= 2 pi with the literals of the source text: 9.3e-16; order 1 (logarithmic pole): exact on 0 < |x| <= pi, C13_Cl1 elsewhere")
claim("C04", "proved", ["C04_nonpos", "C04_small", "C04_harmonic", "C04_dec", "C04_binary64", "C04_digamma"], "exact elementary operations; source literals: error <= 8e-19 for every n >= 1")
claim("C23", "proved", ["C23_Cl_small", "C23_Cl_large", "C23_Sl_small", "C23_Sl_large", "C23_ClSl_real", "C23_ClSl_IEEE", "C23_Li_pos", "C23_Li_neg", "C23_Li_unity_any", "C23_Li_pos_IEEE", "C23_Li", "C23_Li_overflow"], "Cl, Sl: all orders and arguments (the cast of ceil(pow(eps,-1/n)) needs a sane pow). Li: C23_Li is the full claim in binary64 (all orders INT64_MIN+8 < n <= 3037000257, every argument) for a C library that meets UnityLib (satisfiable: unityLibEx_ok); C23_Li_pos, C23_Li_neg, C23_Li_unity_any hold without the contract. C23_Li_overflow is the proved limit: undefined behaviour for every n >= 3037000498 near |z| = 1")
claim("C20", "proved", ["C20_series_stop", "C20_series", "C20_unity", "C20_unity_result", "C20_inversion", "C20_inversion_exceptions", "C20_inversion_neg", "C20_inversion_moderate", "C20_dropped_terms"], "exact elementary operations, every literal within relative u of its decimal value; C20_dropped_terms is the proved limit: for even n >= 232 and z = -exp 230 the value returned is less than a tenth of Li_n(z)")
claim("C21", "proved", ["C21_series_stop", "C21_series", "C21_unity", "C21_unity_result", "C21_Li", "C21_depth", "C21_depth_double", "C21_value_double", "C21_tables_exhausted"], "exact elementary operations, every literal within relative u of its decimal value; C21_tables_exhausted is the proved limit for large |n|")
claim("C22", "proved", ["C22_harmonic", "C22_unity_pos", "C22_series", "C22_rest", "C22_unity_neg", "C22_Cl_small", "C22_Cl_large", "C22_Sl", "C22_ClSl_IEEE", "C22_Li_small", "C22_Li_pos", "C22_unity_pos_IEEE", "C22_Li_neg", "C22_depth_IEEE", "C22_Li_neg_total", "C22_series_real", "C22_series_small", "C22_series_hang", "C22_Li_hang", "LiC_erase", "ClC_erase", "SlC_erase"], "instrumented twins of the functions, proved to compute the same value, count every loop iteration; the recursion of Li(n,z), n < -1, has depth <= 11 for every binary64 argument. The worst-case bound of the series loop (2^63-3) is attained: C22_Li_hang proves that Li(-2, -0.505859375 + 4.9e-324 i) executes 2^63-3 iterations; C22_series_real / C22_series_small give 130 / 1085 iterations for real and for small complex arguments")
claim("C35", "proved", ["C35_Li2f", "C35_Li2d", "C35_Li2l_x87", "C35_Li2l_quad"], "IEEE arithmetic of the format, every operation and literal rounded; library contract: log, log1p with relative error 2u + u^2 (satisfiable: exists_logOK)")
claim("C36", "proved", ["C36_li2f", "C36_li2", "C36_li3", "C36_li4", "C36_cl2", "C36_cl2l", "C36_cl5", "C36_cl5l", "C36_cl6", "C36_cl6l"], "every arithmetic, in particular IEEE of every format")
claim("C37", "proved", ["C37_li2l18", "C37_li2l36", "C37_cli2f", "C37_cli2", "C37_cli2l18", "C37_cli2l36", "C37_cli3", "C37_cli3l18", "C37_cli3l36", "C37_cli4", "C37_cli4l18", "C37_cli4l36", "C37_cli5", "C37_cli5l18", "C37_cli5l36", "C37_cli6", "C37_cli6l18", "C37_cli6l36", "C37_cl3", "C37_cl3l", "C37_cl4", "C37_cl4l", "C37_li2f_accuracy", "C37_li2_accuracy", "C37_li2l18_accuracy", "C37_li2l36_accuracy", "C37_li3_accuracy", "C37_li4_accuracy", "C37_cl2_accuracy", "C37_cl3_accuracy", "C37_cl4_accuracy", "C37_cl5_accuracy", "C37_cl6_accuracy", "C37_cl2l_accuracy", "C37_cl3l_accuracy", "C37_cl4l_accuracy", "C37_cl5l_accuracy", "C37_cl6l_accuracy", "C37_cli2f_accuracy", "C37_cli2_accuracy", "C37_cli2l18_accuracy", "C37_cli2l36_accuracy", "C37_cli3_accuracy", "C37_cli4_accuracy", "C37_cli3l18_accuracy", "C37_cli3l36_accuracy", "C37_cli4l18_accuracy", "C37_cli4l36_accuracy", "C37_cli5_accuracy", "C37_cli5l18_accuracy", "C37_cli5l36_accuracy", "C37_cli6_accuracy", "C37_cli6l18_accuracy", "C37_cli6l36_accuracy"], "exact elementary operations, every literal within relative u of its decimal value")
claim("C38", "proved", ["C38_dcl2", "C38_dcl4", "C38_dcl6", "C38_dcl5", "C38_dcl3", "C38_dcl2_dec", "C38_dcl2_binary64", "C38_dcl3_dec", "C38_dcl3_binary64", "C38_dcl4_dec", "C38_dcl4_binary64", "C38_dcl5_dec", "C38_dcl5_binary64", "C38_dcl6_dec", "C38_dcl6_binary64", "C38_dli2", "C38_dli3", "C38_dli4", "C38_dli3_accuracy", "C38_dli4_accuracy", "C38_cdli2", "C38_cdli3", "C38_cdli3_accuracy", "C38_cdli4_axis", "C38_cdli4", "C38_cdli5", "C38_cdli6"], "exact elementary operations, every literal within relative u of its decimal value")
claim("C39", "proved", ["C39_dcl_overwrites", "C39_dcl2_twice", "C39_dcl4_twice", "C39_dcl6_twice", "C39_dli4_overwrites", "C39_dli4_twice", "C39_cdli2_unassigned", "C39_cdli2_nan"], "C39_dcl_overwrites, C39_dli4_overwrites, C39_cdli2_unassigned: every arithmetic; C39_cdli2_nan: IEEE; the others: exact elementary operations")
claim("C40", "proved", ["C40_Cl2d", "C40_Cl3d", "C40_Cl4d", "C40_Cl5d", "C40_Cl6d", "C40_Cl2l_x87", "C40_Cl3l_x87", "C40_Cl4l_x87", "C40_Cl5l_x87", "C40_Cl6l_x87", "C40_Cl2l_quad", "C40_cl2_C", "C40_cl5_C", "C40_cl6_C"], "IEEE arithmetic of the format, every operation and literal rounded, every finite argument; library contract: log with relative error 2u + u^2 (satisfiable: exists_logOK)")
claim("C41", "proved", ["C41_Li3d", "C41_Li4d", "C41_li3_C", "C41_li4_C"], "IEEE binary64, every operation and literal rounded, every finite argument; library contract: log, log1p with relative error 2u + u^2 (satisfiable: exists_logOK)")
claim("C42", "proved", ["C42_cli5_zero", "C42_cdli5_zero", "C42_cli6_zero", "C42_cdli6_zero", "C42_Li5d", "C42_Li6d"], "IEEE binary64; library contract TinyLib (satisfiable: exists_tinyLib)")
claim("C43", "proved", ["C43_Li5d", "C43_Li6d"], "IEEE binary64; library contract CutLib (satisfiable: exists_cutLib)")
claim("C44", "proved", ["C44_Li3d_IEEE", "C44_Li3l18_IEEE", "C44_Li3l36_IEEE", "C44_Li4d_IEEE", "C44_Li4l18_IEEE", "C44_Li4l36_IEEE", "C44_Li5d_IEEE", "C44_Li5l18_IEEE", "C44_Li5l36_IEEE", "C44_Li6d_IEEE", "C44_Li6l18_IEEE", "C44_Li6l36_IEEE"], "IEEE arithmetic of the format, every operation and literal rounded; library contract CxLib (satisfiable: cxLib_exists); |y| >= 2^-300 and parts at most 2^300 (on the real axis: C41, C29, C28)")
claim("C45", "proved", ["C45_Li2d_IEEE", "C45_Li2l18_IEEE", "C45_Li2l36_IEEE"], "IEEE arithmetic of the format, every operation and literal rounded; library contract CxLib (satisfiable: cxLib_exists); |y| >= 2^-300 and parts at most 2^300; the float overload is not covered")
claim("C46", "proved", ["C46_cli2_IEEE", "C46_cli3_IEEE", "C46_cli4_IEEE", "C46_cli5_IEEE", "C46_cli6_IEEE", "C46_cdli2_IEEE", "C46_cdli3_IEEE", "C46_cdli4_IEEE", "C46_cdli5_IEEE", "C46_cdli6_IEEE", "C46_cli2l18_IEEE", "C46_cli2l36_IEEE", "C46_cli3l18_IEEE", "C46_cli3l36_IEEE", "C46_cli4l18_IEEE", "C46_cli4l36_IEEE", "C46_cli5l18_IEEE", "C46_cli5l36_IEEE", "C46_cli6l18_IEEE", "C46_cli6l36_IEEE"], "same statement and library contract as C44/C45, for the ports; the float functions cli2f are not covered")
claim("C47", "proved", ["C47_Sl", "C47_Sl2", "C47_Sl1", "C47_zero"], "IEEE binary64, every operation and literal rounded; no library contract (only fmod, exact); orders n >= 26: C48")
claim("C48", "proved", ["C48_Sl", "C48_Cl"], "IEEE binary64, every operation and literal rounded; library contract TrigOK (sin, cos within 2u on [0, 3.15], pow with relative error 2u + u^2; satisfiable: exists_trigOK); orders below 2^63")
claim("C49", "proved", ["C49_Cl", "C49_denorm_nan", "C49_Cl1_denorm"], "IEEE binary64, every operation and literal rounded; library contracts MidOK (log, sin, pow; satisfiable: exists_midOK) and DenormLib (special values sin(+0), log(+0), underflowing pow; satisfiable: exists_denormLib)")
