import Verif.Model.Ops

/-! # `zeta.cpp`, `eta.cpp`, `factorial.cpp`, `harmonic.cpp` -/

namespace Polylog

/-- `ZETAS_POS[32]`: zeta(n), n = 2,...,33 (zeta.cpp 16-28) -/
def zetasPos : Vector ℚ 32 :=
  #v[
    1.6449340668482264, 1.2020569031595943, 1.0823232337111382, 1.0369277551433699,
    1.0173430619844491, 1.0083492773819228, 1.0040773561979443, 1.0020083928260822,
    1.0009945751278181, 1.0004941886041195, 1.0002460865533080, 1.0001227133475785,
    1.0000612481350587, 1.0000305882363070, 1.0000152822594087, 1.0000076371976379,
    1.0000038172932650, 1.0000019082127166, 1.0000009539620339, 1.0000004769329868,
    1.0000002384505027, 1.0000001192199260, 1.0000000596081891, 1.0000000298035035,
    1.0000000149015548, 1.0000000074507118, 1.0000000037253340, 1.0000000018626597,
    1.0000000009313274, 1.0000000004656629, 1.0000000002328312, 1.0000000001164155]

/-- `ZETAS_NEG[130]`: zeta(1 - 2n), n = 1, 2, ... (zeta.cpp 31-76) -/
def zetasNeg : Vector ℚ 130 :=
  #v[
    -8.3333333333333333e-2, 8.3333333333333333e-3, -3.9682539682539683e-3, 4.1666666666666667e-3,
    -7.5757575757575758e-3, 2.1092796092796093e-2, -8.3333333333333333e-2, 4.4325980392156863e-1,
    -3.0539543302701197, 2.6456212121212121e1, -2.8146014492753623e2, 3.6075105463980464e3,
    -5.4827583333333333e4, 9.7493682385057471e5, -2.0052695796688079e7, 4.7238486772162990e8,
    -1.2635724795916667e10, 3.8087931125245369e11, -1.2850850499305083e13, 4.8241448354850170e14,
    -2.0040310656516253e16, 9.1677436031953308e17, -4.5979888343656503e19, 2.5180471921451096e21,
    -1.5001733492153929e23, 9.6899578874635941e24, -6.7645882379292821e26, 5.0890659468662290e28,
    -4.1147288792557979e30, 3.5666582095375556e32, -3.3066089876577577e34, 3.2715634236478716e36,
    -3.4473782558278054e38, 3.8614279832705259e40, -4.5892974432454332e42, 5.7775386342770432e44,
    -7.6919858759507135e46, 1.0813635449971655e49, -1.6029364522008965e51, 2.5019479041560463e53,
    -4.1067052335810212e55, 7.0798774408494581e57, -1.2804546887939509e60, 2.4267340392333524e62,
    -4.8143218874045769e64, 9.9875574175727531e66, -2.1645634868435186e69, 4.8962327039620553e71,
    -1.1549023923963520e74, 2.8382249570693707e76, -7.2612008803606716e78, 1.9323514233419812e81,
    -5.3450160425288624e83, 1.5356028846422423e86, -4.5789872682265798e88, 1.4162025212194809e91,
    -4.5400652296092655e93, 1.5076656758807860e96, -5.1830949148264564e98, 1.8435647427256529e101,
    -6.7805554753090959e103, 2.5773326702754605e106, -1.0119112875704598e109,
    4.1016346161542292e111, -1.7155244534032019e114, 7.4003425705269094e116,
    -3.2909225357054443e119, 1.5079831534164771e122, -7.1169879188254549e124,
    3.4580429141577772e127, -1.7290907606676748e130, 8.8936991695032969e132,
    -4.7038470619636015e135, 2.5571938231060206e138, -1.4284067500443528e141,
    8.1952152218313783e143, -4.8276485422727372e146, 2.9189612374770324e149,
    -1.8108932162568904e152, 1.1523577220021169e155, -7.5192311951981770e157,
    5.0294016576411050e160, -3.4473420444477677e163, 2.4207458645868515e166,
    -1.7409465920377677e169, 1.2819489863482243e172, -9.6624121108560918e174,
    7.4526910304300896e177, -5.8808393311674371e180, 4.7462718654907615e183,
    -3.9169132594772825e186, 3.3045071443226032e189, -2.8492890550994583e192,
    2.5103329345077587e195, -2.2593901995475253e198, 2.0769138004287608e201,
    -1.9494732174927259e204, 1.8680731471265914e207, -1.8270752662814577e210,
    1.8235386322595677e213, -1.8568690810125945e216, 1.9287189851195602e219,
    -2.0431170460286448e222, 2.2068411644527846e225, -2.4300821796490274e228,
    2.7274887879083470e231, -3.1197421573755085e234, 3.6358938724282600e237,
    -4.3168300030760883e240, 5.2204244879387200e243, -6.4292606949769305e246,
    8.0623033870130844e249, -1.0292714737903011e253, 1.3375329699780524e256,
    -1.7689480902797380e259, 2.3806479018092397e262, -3.2597127947194185e265,
    4.5404962371601213e268, -6.4328575193147851e271, 9.2687048675749311e274,
    -1.3579619500285181e278, 2.0227839736049322e281, -3.0629906992208336e284,
    4.7143085300742652e287, -7.3741045871355758e290, 1.1720962767050827e294,
    -1.8928866644685657e297, 3.1055517596048927e300, -5.1754977470366798e303,
    8.7601563446229215e306]

/-- `NEG_ETA[54]`: Li_n(-1), n = 1,...,54 (eta.cpp 15-34) -/
def negEtaPos : Vector ℚ 54 :=
  #v[
    -0.69314718055994531, -0.82246703342411322, -0.90154267736969571, -0.94703282949724592,
    -0.97211977044690931, -0.98555109129743510, -0.99259381992283028, -0.99623300185264790,
    -0.99809429754160533, -0.99903950759827157, -0.99951714349806075, -0.99975768514385819,
    -0.99987854276326512, -0.99993917034597972, -0.99996955121309924, -0.99998476421490611,
    -0.99999237829204101, -0.99999618786961011, -0.99999809350817168, -0.99999904661158152,
    -0.99999952325821554, -0.99999976161323082, -0.99999988080131844, -0.99999994039889239,
    -0.99999997019885696, -0.99999998509923200, -0.99999999254955048, -0.99999999627475340,
    -0.99999999813736942, -0.99999999906868228, -0.9999999995343403, -0.9999999997671699,
    -0.9999999998835849, -0.9999999999417924, -0.9999999999708962, -0.9999999999854481,
    -0.9999999999927240, -0.9999999999963620, -0.9999999999981810, -0.9999999999990905,
    -0.9999999999995453, -0.9999999999997726, -0.9999999999998863, -0.9999999999999432,
    -0.9999999999999716, -0.9999999999999858, -0.9999999999999929, -0.9999999999999964,
    -0.9999999999999982, -0.9999999999999991, -0.9999999999999996, -0.9999999999999998,
    -0.9999999999999999, -0.9999999999999999]

/-- `NEG_ETA_NEG_N[]`: Li_n(-1), n = -1, -3, -5, ... (eta.cpp 37-74) -/
def negEtaNeg : Vector ℚ 109 :=
  #v[
    -0.25, 0.125, -0.25, 1.0625, -7.75, 86.375, -1365.25, 29049.03125, -800572.75, 2.7741322625e7,
    -1.18052913025e9, 6.05239800516875e10, -3.67941677853775e12, 2.6170760990658388e14,
    -2.1531418140800295e16, 2.0288775575173016e18, -2.1708009902623771e20, 2.6173826968455815e22,
    -3.5324148876863878e24, 5.3042033406864907e26, -8.8138218364311577e28, 1.6128065107490779e31,
    -3.2355470001722734e33, 7.0876727476537493e35, -1.6890450341293966e38, 4.3639690731216831e40,
    -1.2185998827061261e43, 3.6670584803153006e45, -1.1859898526302099e48, 4.1120769493584015e50,
    -1.5249042436787620e53, 6.0349693196941307e55, -2.5437161764210696e58, 1.1396923802632288e61,
    -5.4180861064753979e63, 2.7283654799994374e66, -1.4529750514918543e69, 8.1705519371067450e71,
    -4.8445781606678368e74, 3.0246694206649519e77, -1.9858807961690493e80, 1.3694474620720087e83,
    -9.9070382984295808e85, 7.5103780796592646e88, -5.9598418264260881e91, 4.9455988887500020e94,
    -4.2873596927020241e97, 3.8791952037716163e100, -3.6600317773156342e103,
    3.5978775704117284e106, -3.6818662617467813e109, 3.9192743066421374e112,
    -4.3363921885063858e115, 4.9833162711780838e118, -5.9438653020209606e121,
    7.3533439019770134e124, -9.4293465716973561e127, 1.2525196404154548e131,
    -1.7223787163994400e134, 2.4505178680729537e137, -3.6051616659014189e140,
    5.4813803836499771e143, -8.6083892012122616e146, 1.3957139354298160e150,
    -2.3350508860591630e153, 4.0291297374794860e156, -7.1669946227411534e159,
    1.3136385964069363e163, -2.4799083462304252e166, 4.8198083696385558e169,
    -9.6400031196958281e172, 1.9833611905147644e176, -4.1959717912682865e179,
    9.1243724595750010e182, -2.0386902382464212e186, 4.6786408066350383e189,
    -1.1024400389046488e193, 2.6662916424238258e196, -6.6165585014771755e199,
    1.6841726974970032e203, -4.3957474813006951e206, 1.1760766011899571e210,
    -3.2245094671360478e213, 9.0570855543185808e216, -2.6054618058433054e220,
    7.6741449421726560e223, -2.3136880427961752e227, 7.1382598572408242e230,
    -2.2530900128907084e234, 7.2736404696018159e237, -2.4010608416429639e241,
    8.1026279414941787e244, -2.7945745738098571e248, 9.8485095122481192e251,
    -3.5456055356238575e255, 1.3036999220919921e259, -4.8948166866453784e262,
    1.8761736309852136e266, -7.3399918877807488e269, 2.9303136033539038e273,
    -1.1935494277949469e277, 4.9589310621971370e280, -2.1012240064879845e284,
    9.0784179834777353e287, -3.9987113012775244e291, 1.7952380922182709e295,
    -8.2136799002055846e298, 3.8290431596908477e302, -1.8184610414701105e306]

/-- `INVERSE_FACTORIALS[178]` (factorial.cpp 15-75) -/
def inverseFactorials : Vector ℚ 178 :=
  #v[
    1, 1, 0.5, 1.6666666666666667e-1, 4.1666666666666667e-2, 8.3333333333333333e-3,
    1.3888888888888889e-3, 1.9841269841269841e-4, 2.4801587301587302e-5, 2.7557319223985891e-6,
    2.7557319223985891e-7, 2.5052108385441719e-8, 2.0876756987868099e-9, 1.6059043836821615e-10,
    1.1470745597729725e-11, 7.6471637318198165e-13, 4.7794773323873853e-14, 2.8114572543455208e-15,
    1.5619206968586226e-16, 8.2206352466243297e-18, 4.1103176233121649e-19, 1.9572941063391261e-20,
    8.8967913924505733e-22, 3.8681701706306840e-23, 1.6117375710961183e-24, 6.4469502843844734e-26,
    2.4795962632247975e-27, 9.1836898637955461e-29, 3.2798892370698379e-30, 1.1309962886447717e-31,
    3.7699876288159056e-33, 1.2161250415535179e-34, 3.8003907548547436e-36, 1.1516335620771950e-37,
    3.3871575355211618e-39, 9.6775929586318910e-41, 2.6882202662866364e-42, 7.2654601791530713e-44,
    1.9119632050402819e-45, 4.9024697565135434e-47, 1.2256174391283858e-48, 2.9893108271424045e-50,
    7.1174067312914393e-52, 1.6552108677421952e-53, 3.7618428812322618e-55, 8.3596508471828040e-57,
    1.8173154015614791e-58, 3.8666285139605939e-60, 8.0554760707512373e-62, 1.6439747083165790e-63,
    3.2879494166331581e-65, 6.4469596404571727e-67, 1.2397999308571486e-68, 2.3392451525606577e-70,
    4.3319354677049217e-72, 7.8762463049180395e-74, 1.4064725544496499e-75, 2.4674957095607893e-77,
    4.2543029475186023e-79, 7.2106829618959360e-81, 1.2017804936493227e-82, 1.9701319568021683e-84,
    3.1776321883905941e-86, 5.0438606164930064e-88, 7.8810322132703225e-90, 1.2124664943492804e-91,
    1.8370704459837582e-93, 2.7418961880354600e-95, 4.0322002765227352e-97, 5.8437685166996163e-99,
    8.3482407381423090e-101, 1.1758085546679308e-102, 1.6330674370387928e-104,
    2.2370786808750587e-106, 3.0230792984798090e-108, 4.0307723979730787e-110,
    5.3036478920698404e-112, 6.8878544052855070e-114, 8.8305825708788551e-116,
    1.1177952621365639e-117, 1.3972440776707049e-119, 1.7249926884823518e-121,
    2.1036496201004290e-123, 2.5345176145788301e-125, 3.0172828744986072e-127,
    3.5497445582336556e-129, 4.1276099514344832e-131, 4.7443792545223945e-133,
    5.3913400619572665e-135, 6.0576854628733332e-137, 6.7307616254148146e-139,
    7.3964413466096864e-141, 8.0396101593583548e-143, 8.6447421068369406e-145,
    9.1965341562095113e-147, 9.6805622696942224e-149, 1.0083919030931482e-150,
    1.0395792815393280e-152, 1.0607951852442123e-154, 1.0715102881254669e-156,
    1.0715102881254669e-158, 1.0609012753717494e-160, 1.0400992895801465e-162,
    1.0098051355147053e-164, 9.7096647645644744e-167, 9.2472997757756899e-169,
    8.7238677129959339e-171, 8.1531473953233027e-173, 7.5492105512252803e-175,
    6.9258812396562204e-177, 6.2962556724147458e-179, 5.6723024075808521e-181,
    5.0645557210543322e-183, 4.4819077177471967e-185, 3.9314979980238567e-187,
    3.4186939113250928e-189, 2.9471499235561145e-191, 2.5189315585949697e-193,
    2.1346877615211607e-195, 1.7938552617824880e-197, 1.4948793848187400e-199,
    1.2354375081146612e-201, 1.0126536951759518e-203, 8.2329568713492014e-206,
    6.6394813478622592e-208, 5.3115850782898073e-210, 4.2155437129284185e-212,
    3.3193257582113532e-214, 2.5932232486026197e-216, 2.0102505803121083e-218,
    1.5463466002400833e-220, 1.1804172520916666e-222, 8.9425549400883835e-225,
    6.7237255188634463e-227, 5.0177056110921241e-229, 3.7168189711793512e-231,
    2.7329551258671700e-233, 1.9948577561074233e-235, 1.4455490986285676e-237,
    1.0399633803083220e-239, 7.4283098593451574e-242, 5.2683048647837996e-244,
    3.7100738484392955e-246, 2.5944572366708360e-248, 1.8017064143547472e-250,
    1.2425561478308602e-252, 8.5106585467867134e-255, 5.7895636372698731e-257,
    3.9118673224796440e-259, 2.6254143103890228e-261, 1.7502762069260152e-263,
    1.1591233158450432e-265, 7.6258112884542314e-268, 4.9841903846106088e-270,
    3.2364872627341615e-272, 2.0880562985381687e-274, 1.3384976272680569e-276,
    8.5254625940640566e-279, 5.3958624013063649e-281, 3.3936241517650094e-283,
    2.1210150948531309e-285, 1.3174006800330005e-287, 8.1321029631666700e-290,
    4.9890202228016380e-292, 3.0420855017083159e-294, 1.8436881828535248e-296,
    1.1106555318394728e-298, 6.6506319271824716e-301, 3.9587094804657569e-303,
    2.3424316452460100e-305, 1.3779009677917706e-307, 8.0579003964431028e-310,
    4.6848258118855249e-312, 2.7079917987777601e-314, 1.5563171257343449e-316,
    8.8932407184819707e-319, 5.0529776809556651e-321, 2.8547896502574379e-323]

/-- `c[]` of `digamma`: B_{2n}/(2n), n = 1,...,8 (harmonic.cpp 23-27) -/
def digammaC : Vector ℚ 8 :=
  #v[
    0.083333333333333333, -0.0083333333333333333, 0.0039682539682539683, -0.0041666666666666667,
    0.0075757575757575758, -0.021092796092796093, 0.083333333333333333, -0.44325980392156863]

section
variable {F : Type} [FOps F]

/-- numeric literal -/
local notation:max "♯" q:max => (FOps.lit (q : ℚ) : F)
/-- conversion of an integer -/
local notation:max "♮" k:max => (FOps.ofInt k : F)

/-- `double zeta(int64_t n)` (zeta.cpp 83-104).
`sizeof(ZETAS_NEG)/sizeof(ZETAS_NEG[0])` is the declared size 130, that of `ZETAS_POS` is 32. -/
def zeta (n : Int) : M F := do
  if n < 0 then
    if isEven n then pure ♯0
    else do
      let i := i64div (← i64neg (← i64add 1 n)) 2
      if i < 130 then do
        let c ← arrGet zetasNeg i
        pure ♯c
      else do
        let k := i64div (← i64sub 1 n) 2
        if isEven k then pure FOps.inf else pure ∸(FOps.inf : F)
  else if n = 0 then pure ∸♯0.5
  else if n = 1 then pure FOps.inf
  else do
    let i ← i64sub n 2
    if i < 32 then do
      let c ← arrGet zetasPos i
      pure ♯c
    else pure (♯1 /. (♯1 -. powi ♯0.5 n))

/-- `double neg_eta(int64_t n)` (eta.cpp 82-100).  The size of `NEG_ETA_NEG_N` is that of its initialiser. -/
def negEta (n : Int) : M F := do
  if n < 0 then
    if isEven n then pure ♯0
    else do
      let i := i64div (← i64neg (← i64add 1 n)) 2
      if i < 109 then do
        let c ← arrGet negEtaNeg i
        pure ♯c
      else do
        let k := i64div (← i64sub 1 n) 2
        if isEven k then pure FOps.inf else pure ∸(FOps.inf : F)
  else if n = 0 then pure ∸♯0.5
  else if n ≤ 54 then do
    let c ← arrGet negEtaPos (← i64sub n 1)
    pure ♯c
  else pure ∸♯1

/-- `double inv_fac(int64_t n)` (factorial.cpp 80-89) -/
def invFac (n : Int) : M F := do
  if n < 0 then pure FOps.nan
  else if n < 178 then do
    let c ← arrGet inverseFactorials n
    pure ♯c
  else pure ♯0

/-- loop `for (int64_t nu = 1; nu < 7 - n; ++nu) { res -= 1.0/(n + nu); }` of `digamma`
(harmonic.cpp 37-39); `fuel` is the number of remaining iterations -/
def digammaLoop (n : Int) : (fuel : Nat) → (nu : Int) → F → F
  | 0, _, res => res
  | fuel + 1, nu, res =>
    digammaLoop n fuel (nu + 1) (res -. ♯1 /. ♮(n + nu))

/-- `double digamma(int64_t n)` (harmonic.cpp 20-49).  In the branch `n < 7` all integers are in 1..7. -/
def digamma (n : Int) : F :=
  if n ≤ 0 then FOps.nan
  else
    let res : F := ♯0
    let st : F × Int :=
      if n < 7 then
        let res := digammaLoop n (7 - n - 1).toNat 1 res
        let res := res -. ♯1 /. ♮n
        (res, 7)
      else (res, n)
    let res := st.1
    let n := st.2
    let t := ♯1 /. ♮n
    let t2 := t *. t
    res +. FOps.log (♮n) -. ♯0.5 *. t
      -. t2 *. (♯(digammaC[0]) +. t2 *. (♯(digammaC[1]) +. t2 *. (♯(digammaC[2]) +. t2 *. (♯(digammaC[3]) +. t2 *. (♯(digammaC[4]) +. t2 *. (♯(digammaC[5]) +. t2 *. (♯(digammaC[6]) +. t2 *. ♯(digammaC[7]))))))))

/-- loop `for (int64_t k = 2; k <= n; ++k) { sum += 1.0/k; }` of `harmonic` (harmonic.cpp 60-62) -/
def harmonicLoop : (fuel : Nat) → (k : Int) → F → F
  | 0, _, sum => sum
  | fuel + 1, k, sum => harmonicLoop fuel (k + 1) (sum +. ♯1 /. ♮k)

/-- `double harmonic(int64_t n)` (harmonic.cpp 54-68) -/
def harmonic (n : Int) : M F := do
  if n ≤ 0 then pure FOps.nan
  else if n < 20 then pure (harmonicLoop (n - 1).toNat 2 ♯1)
  else do
    let eulergamma : F := ♯0.57721566490153286
    pure (eulergamma +. (digamma (← i64add n 1) : F))

end
end Polylog
