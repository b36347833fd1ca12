import Verif.Proofs.ClCoef

/-! # Integer tables of the coefficients of the Clausen functions (generated)

`clLo n` : `2^190` times the coefficients of the expansion of `Cl_n` about `0`;
`clHi n` : `2^240` times the coefficients of the expansion about `π`; rounded to integers. -/

namespace Polylog
set_option linter.style.longLine false

def clLo2 : List ℤ := [
  1569275433846670190958947355801916604025588861116008628224, 21795492136759308207763157719471063944799845293277897614,
  108977460683796541038815788597355319723999226466389488, 1235572116596332664839181276614005892562349506421650,
  18018760033696518028904726950620919266534263635316, 297830744358620132709169040506130896967508489840,
  5315608828472507816104052495743169314947947852, 100004218191233866294287528863474965404230567,
  1955640447651886323456087758970528491928536, 39397357480701309056915801614298117615405,
  812611433449820361375430541146958453034, 17085262457584055986423239847875939469,
  364973310398774763376307289030233885, 7901608152614546738501175839930288,
  173036144640000844219550331173773, 3826926955468642131820205810178,
  85370822625499319380571437092, 1918963376464075813377921965,
  43425985808327222058801320, 988657739677050885711595,
  22630314496681134263733, 520543412464127778008,
  12026791273569318142, 278997002771682932,
  6496181841905611, 151773368637690,
  3557105973982, 83610309520,
  1970578141, 46560411,
  1102696, 26172,
  622, 15,
  0, 0,
  0]

def clHi2 : List ℤ := [
  1224685061431752149387114016819916847747660333428801226516089031962388908, -73618627699099347065970729197621604826145162369817456588400258387192491,
  -1840465692477483676649268229940540120653629059245436414710006459679812, -87641223451308746507108010949549529554934717106925543557619355222848,
  -5173266662056419064655681201883131952895452051450466112776142495793, -343040142296789285570751052959095380833709119989228768975530304534,
  -24507934070211062482360316128487893729951716492199863457619048845, -1844639624525154878590995608540726175442992540333587683027463659,
  -144298593496718685651409964241391690727125157258601834475693652, -11628003172549979327169394294982432591495008246582422685243911,
  -959361334310885016389788540418457497573360402184318727898454, -80682851544430600033204672155680969493723384519106732103206,
  -6894150501753196977778735548872687910342064401695087423435, -597028623114403667367449984637792112710435563114406254936,
  -52296965550645756752724616973460865953249619434384414378, -4626470801936508971673487674816999214765295387533311288,
  -412827966758708571640463664349693963571440244296007751, -37118149961076064163340486754697313157034232083949136,
  -3359922911049042159622608801692161786111827776310297, -305974750272787779941243378063742216654119651091233,
  -28014972417036474624143218820295413282464745717851, -2577606129901766919236436749832837833881350419182,
  -238215143386857984942713306635775069810548972914, -22104419876587239032860300864918840199491090700,
  -2058722202770835756880850973530077936847664393, -192395601852227716484710282566122166539491806,
  -18036670091974436556570181801282389493499658, -1695818544767818177906041937452409586957223,
  -159872292083192746150724265648316448962929, -15109717115903147802388964104847298546269,
  -1431381856400361302505515263791926217765, -135895353917261643500524446067404746863,
  -12928369975766495998178833749855666615, -1232306158707509712829941739076079327,
  -117673753984093009664948015995616755, -11255932439242999076447071959809810,
  -1078407164531804726353790442545748, -103477372491087591002918622531458,
  -9943386317246791639431384466351, -956791241015823978039797491328,
  -92185822228129503522097563795, -8892982738511821750300269815,
  -858897694401394288111299175, -83046665532529888274851185,
  -8038360497152959679735445, -778854817985764351102536,
  -75538766928374707827537, -7333131329677190960156,
  -712521886481904731920, -69291531559317724886,
  -6744042707088966712, -656907989256517472,
  -64035315918833997, -6246731028176306,
  -609807063583311, -59569958112708,
  -5822999423657, -569561698145,
  -55744223664, -5459024060,
  -534906180, -52442036,
  -5144143, -504860,
  -49573, -4870,
  -479, -47,
  -5, 0,
  0, 0]

def clLo3 : List ℤ := [
  1886358368214157138066654264243148626357171929661876496391, -1176956575385002643219210516851437453019191645837006471168,
  -5448873034189827051940789429867765986199961323319474404, -18162910113966090173135964766225886620666537744398248,
  -154446514574541583104897659576750736570293688302706, -1801876003369651802890472695062091926653426363532,
  -24819228696551677725764086708844241413959040820, -379686344890893415436003749695940665353424847,
  -6250263636952116643392970553967185337764410, -108646691536215906858671542165029360662696,
  -1969867874035065452845790080714905880770, -36936883338628198244337751870316293320,
  -711885935732668999434301660328164145, -14037435015337490899088741885778226,
  -282200291164805240660756279997510, -5767871488000028140651677705792,
  -119591467358395066619381431568, -2510906547808803511193277562,
  -53304538235113217038275610, -1142789100219137422600035,
  -24716443491926272142790, -538817011825741291994,
  -11830532101457449500, -261451984208028655,
  -5812437557743394, -129923636838112,
  -2918718627648, -65872332852,
  -1493041241, -33975485,
  -776007, -17785,
  -409, -9,
  0, 0,
  0]

def clHi3 : List ℤ := [
  -1592888033283092807457420751614102511734890899625798249346880442382308504, 612342530715876074693557008409958423873830166714400613258044515981194454,
  -18404656924774836766492682299405401206536290592454364147100064596798123, -306744282079580612774878038323423353442271509874239402451667743279969,
  -10955152931413593313388501368693691194366839638365692944702419402856, -517326666205641906465568120188313195289545205145046611277614249579,
  -28586678524732440464229254413257948402809093332435730747960858711, -1750566719300790177311451152034849552139408320871418818401360632,
  -115289976532822179911937225533795385965187033770849230189216479, -8016588527595482536189442457855093929284730958811213026427425,
  -581400158627498966358469714749121629574750412329121134262196, -43607333377767500744990388200838977162425472826559942177202,
  -3361785481017941668050194673153373728905141021629447170967, -265159634682815268376105213418180304243925553911349516286,
  -21322450825514416691694642308492575453944127254085937676, -1743232185021525225090820565782028865108320647812813813,
  -144577212560515905364796489838031225461415480860415978, -12141999022314957989425401892638057752101183655764934,
  -1031059721141001782315013520963814254362062002331920, -88419023974974793674279178991898994371363888850271,
  -7649368756819694498531084451593555416352991277281, -667023152786582729146267114768938411487255850425,
  -58581957497767429982646289768928132588212509527, -5178590073627347498754637100777718908924977672,
  -460508747428900813184589601352475837489397723, -41174444055416715137617019470601558736953288,
  -3699915420235148393936736203194657048836381, -334012409110637714010558922245970175805549,
  -30282474013711038891179320311650171195665, -2756418829020564588805590787039938775223,
  -251828618598385796706482735080788309104, -23086804135489698427508310706321390609,
  -2123364904957213179695694469803199170, -195884393572219636336042935603873737,
  -18122149392757495776910907927589402, -1681053628344185852356400228508811,
  -156332394989486098283987110552914, -14573069790970334139916087061429,
  -1361544374882731460564718717519, -127479311759574251787581852133,
  -11959890512697799725497468642, -1124217344245481750269482485,
  -105868842125140735122622260, -9987182493039468466410456,
  -943712108324203275850582, -89315116635032885330394,
  -8465813238975699468506, -803603903493347955612,
  -76386784684137405835, -7270631494713313591,
  -692915315593177249, -66118065755774183,
  -6316422973620360, -604106753951264,
  -57840102112744, -5543700578030,
  -531874626006, -51078942313,
  -4910014639, -472408675,
  -45491867, -4384477,
  -422920, -40827,
  -3944, -381,
  -37, -4,
  0, 0,
  0, 0]

def clLo4 : List ℤ := [
  1886358368214157138066654264243148626357171929661876496391, -479500827008704780570789469828363406785596596452113747513,
  -1089774606837965410388157885973553197239992264663894881, -2594701444852298596162280680889412374380933963485464,
  -17160723841615731456099739952972304063365965366967, -163806909397241072990042972278371993332129669412,
  -1909171438196282901981852823757249339535310832, -25312422992726227695733583313062711023561656,
  -367662566879536273140762973762775608103789, -5718246922958731939930081166580492666458,
  -93803232096907878706942384795947899084, -1605951449505573836710337037839838840,
  -28475437429306759977372066413126566, -519905000568055218484768217991786,
  -9731044522924318643474354482673, -186060370580646069053279925993,
  -3623983859345305049072164593, -71740187080251528891236502,
  -1440663195543600460493935, -29302284621003523656411,
  -602840085168933466897, -12530628181993983535,
  -262900713365721100, -5562808174638908,
  -118621174647824, -2547522290943,
  -55070162786, -1197678779,
  -26193706, -575856,
  -12721, -282,
  -6, 0,
  0, 0,
  0]

def clHi4 : List ℤ := [
  1592888033283092807457420751614102511734890899625798249346880442382308504, -204114176905292024897852336136652807957943388904800204419348171993731485,
  3680931384954967353298536459881080241307258118490872829420012919359625, 43820611725654373253554005474774764777467358553462771778809677611424,
  1217239214601510368154277929854854577151871070929521438300268822540, 47029696927785627860506192744392108662685927740458782843419477234,
  2198975271133264651094558031789072954062237948648902365227758362, 116704447953386011820763410135656636809293888058094587893424042,
  6781763325460128230113954443164434468540413751226425305248028, 421925711978709607167865392518689154172880576779537527706707,
  27685721839404712683736653083291506170226210110910530202962, 1895971016424673945434364704384303354888064035937388790313,
  134471419240717666722007786926134949156205640865177886839, 9820727210474639569485378274747418675700946441161093196,
  735256925017738506610160079603192257032556112209859920, 56233296291016942744865179541355769842203891864929478,
  4381127653348966829236257267819128044285317601830787, 346914257780427371126440054075373078631462390164712,
  27866478949756804927432797863886871739515189252214, 2267154460896789581391773820305102419778561252571,
  186569969678529134110514254916915985764707104324, 15512166343874016956889932901603218871796647684,
  1301821277728165110725473105976180724182500212, 110182767523986116994779512782504657636701653,
  9398137702630628840501828599030119132436688, 807342040302288532110137636678461936018692,
  69809724910097139508240305720653906581819, 6072952892920685709282889495381275923737,
  531271473924755068266303865116669670099, 46718963203738382861111708254914216529,
  4128338009809603224696438280012923100, 366457208499836482976322392163831597,
  32667152383957125841472222612356910, 2923647665257009497552879635878712,
  262639846271847764882766781559267, 23676811666819519047273242655054,
  2141539657390220524438179596615, 194307597212937788532214494152,
  17682394478996512474866476851, 1613662174171825971994706989,
  147652969292565428709845292, 13544787280066045183969668,
  1245515789707538060266144, 114795201069419177774833,
  10603506835103407593827, 981484798187174564070,
  91030249881459134070, 8458988457824715322,
  787492625609663978, 73440722168821349,
  6860547679140369, 641922968502662,
  60156409272575, 5645857513563,
  530643138649, 49943248451,
  4706855097, 444164716,
  41965937, 3969821,
  375966, 35646,
  3383, 321,
  31, 3,
  0, 0,
  0, 0,
  0, 0]

def clLo5 : List ℤ := [
  1627225252820265638680701296960732970018046305314481880279, -943179184107078569033327132121574313178585964830938248195,
  136221825854745676298519735746694149654999033082986860089, 181629101139660901731359647662258866206665377443982480,
  324337680606537324520285085111176546797616745435683, 1716072384161573145609973995297230406336596536697,
  13650575783103422749170247689864332777677472451, 136369388442591635855846630268374952823950774,
  1582026437045389230983348957066419438972604, 20425698159974237396709054097931978227988,
  285912346147936596996504058329024633323, 4263783277132176304861017490724904504,
  66914643729398909862930709909993285, 1095209131896413845283541015889483,
  18568035734573400660170293499707, 324368150764143954782478482756,
  5814386580645189657914997687, 106587760568979560266828370,
  1992782974451431358089903, 37912189356410538434051,
  732557115525088091410, 14353335361165082545,
  284787004136226899, 5715232899254807,
  115891836971644, 2372423492956,
  48990813287, 1019817829,
  21387121, 451616,
  9598, 205,
  4, 0,
  0, 0,
  0]

def clHi5 : List ℤ := [
  -1717586963027158470860676626052988674641868573361601905700278879070350656, 796444016641546403728710375807051255867445449812899124673440221191154252,
  -51028544226323006224463084034163201989485847226200051104837042998432871, 613488564159161225549756076646846706884543019748478804903335486559937,
  5477576465706796656694250684346845597183419819182846472351209701428, 121723921460151036815427792985485457715187107092952143830026882254,
  3919141410648802321708849395366009055223827311704898570284956436, 157069662223804617935325573699219496718731282046350168944839883,
  7294027997086625738797713133478539800580868003630911743339003, 376764629192229346117441913509135248252245208401468072513779,
  21096285598935480358393269625934457708644028838976876385335, 1258441901791123303806211503785977553192100459586842281953,
  78998792351028081059765196016012639787002668164057866263, 5171977663104525643154145651005190352161755417891457186,
  350740257516951413195906366955264952703605230041467614, 24508564167257950220338669320106408567751870406995331,
  1757290509094279460777036860667367807568871620779046, 128856695686734318506948743171150824831921105936200,
  9636507160567426975734445946538141073096177504575, 733328393414652761248231522733865045776715506637,
  56678861522419739534794345507627560494464031314, 4442142135203074621678910831355142518207312008,
  352549235088045839929316656854618610722651084, 28300462559307937189684197956003928786576092,
  2295474323416377437391239849635513700764618, 187962754052612576810036571980602382648734,
  15525808467351702540579569936124268000359, 1292772683520317398300746402234331603367,
  108445587373583673380051598131808498638, 9159852998702673590798342502011546036,
  778649386728973047685195137581903609, 66586096932412955237039327096982631,
  5725893882809945046505037377559869, 494956854302380694567760948672074,
  42994818606720727905189406409981, 3751997803883539498325239736561,
  328844606483604431212128370209, 28939725099867844924840264819,
  2556678910696549849108085449, 226697365115339903523929190,
  20170777177147824649933837, 1800645966982505228168845,
  161247467619833871237734, 14482741740785326282164,
  1304490921243399747441, 117816742612260084376,
  10668313023773636566, 968406913632543979,
  88114463102340785, 8035639036833306,
  734407221688213, 67260271364121,
  6172336235603, 567513295024,
  52276458459, 4824028533,
  445921861, 41288203,
  3829006, 355644,
  33082, 3082,
  287, 27,
  3, 0,
  0, 0,
  0, 0,
  0, 0]

def clLo6 : List ℤ := [
  1627225252820265638680701296960732970018046305314481880279, -314393061369026189677775710707191437726195321610312749398,
  29859824227360252244635526075675357604375788051790719731, 25947014448522985961622806808894123743809339634854640,
  36037520067393036057809453901241838533068527270631, 156006580378324831419088545027020946030599685154,
  1050044291007955596090019053066487136744420958, 9091292562839442390389775351224996854930052,
  93060378649728778293138173945083496410153, 1075036745261801968247844952522735696210,
  13614873626092218904595431349001173015, 185381881614442448037435543074995848,
  2676585749175956394517228396399731, 40563301181348660936427445032944,
  640277094295634505523113568955, 10463488734327224347821886541,
  176193532746823929027727203, 3045364587685130293337953,
  53858999309498144813241, 972107419395142011130,
  17867246720124099790, 333798496771280989,
  6328600091916153, 121600699984145,
  2365139530034, 46518107705,
  924354968, 18542142,
  375213, 7655,
  157, 3,
  0, 0,
  0, 0,
  0]

def clHi6 : List ℤ := [
  1717586963027158470860676626052988674641868573361601905700278879070350656, -265481338880515467909570125269017085289148483270966374891146740397051417,
  10205708845264601244892616806832640397897169445240010220967408599686574, -87641223451308746507108010949549529554934717106925543557619355222848,
  -608619607300755184077138964927427288575935535464760719150134411270, -11065811041831912437766162998680496155926100644813831257275171114,
  -301472416203754024746834568874308388863371331669607582329612034, -10471310814920307862355038246614633114582085469756677929655992,
  -429060470416860337576336066675208223563580470801818337843471, -19829717325906807690391679658375539381697116231656214342830,
  -1004585028520737159923489029806402748030668039951279827873, -54714865295266230600270065381999024051830454764645316607,
  -3159951694041123242390607840640505591480106726562314651, -191554728263130579376079468555747790820805756218202118,
  -12094491638515565972272633343284998369089835518671297, -790598844105095168398021590971174469927479690548236,
  -53251227548311498811425359414162660835420352144820, -3681619876763837671627106947747166423769174455320,
  -260446139474795323668498539095625434408004797421, -18803292138837250288416192890611924250685012991,
  -1382411256644383891092545012381160012060098325, -103305631051234293527416530961747500423425861,
  -7834427446401018665095925707880413571614469, -602137501261871004035833999063913378437789,
  -46846414763599539538596731625214565321727, -3685544197110050525686991607462791816642,
  -292939782402862312086406979926872981139, -23504957882187589060013570949715120061,
  -1902554164448836375088624528628219274, -155251745740723281199971906813755018,
  -12764744044737263076806477665277108, -1056922173530364368841894080904486,
  -88090675120153000715462113500921, -7387415735856428277130760427941,
  -623113313140880114567962411739, -52845039491317457722890700515,
  -4504720636761704537152443428, -385863001331571265664536864,
  -33203622216838309728676434, -2869586900194175993973787,
  -249021940458615119134986, -21694529722680785881552,
  -1897029030821574955738, -166468295871095704393,
  -14657201362285390421, -1294689479255605323,
  -114713043266383189, -10193756985605726,
  -908396526828256, -81168071079124,
  -7271358630576, -653012343341,
  -58784154625, -5303862570,
  -479600536, -43459717,
  -3946211, -359028,
  -32727, -2989,
  -273, -25,
  -2, 0,
  0, 0,
  0, 0,
  0, 0,
  0, 0]

theorem clLo2_chk : tabChk (2 ^ 190) (loQ 0 1) 0 0 clLo2 (bernL 40) = true := by decide +kernel
theorem clHi2_chk : tabChk (2 ^ 240) (hiQ 0 1) 0 0 clHi2 (bernL 75) = true := by decide +kernel
theorem clLo2_len : clLo2.length = 37 := rfl
theorem clHi2_len : clHi2.length = 72 := rfl
theorem clLo3_chk : tabChk (2 ^ 190) (loQ 1 0) 1 0 clLo3 (bernL 40) = true := by decide +kernel
theorem clHi3_chk : tabChk (2 ^ 240) (hiQ 1 0) 1 0 clHi3 (bernL 75) = true := by decide +kernel
theorem clLo3_len : clLo3.length = 37 := rfl
theorem clHi3_len : clHi3.length = 72 := rfl
theorem clLo4_chk : tabChk (2 ^ 190) (loQ 1 1) 1 0 clLo4 (bernL 40) = true := by decide +kernel
theorem clHi4_chk : tabChk (2 ^ 240) (hiQ 1 1) 1 0 clHi4 (bernL 75) = true := by decide +kernel
theorem clLo4_len : clLo4.length = 37 := rfl
theorem clHi4_len : clHi4.length = 72 := rfl
theorem clLo5_chk : tabChk (2 ^ 190) (loQ 2 0) 2 0 clLo5 (bernL 40) = true := by decide +kernel
theorem clHi5_chk : tabChk (2 ^ 240) (hiQ 2 0) 2 0 clHi5 (bernL 75) = true := by decide +kernel
theorem clLo5_len : clLo5.length = 37 := rfl
theorem clHi5_len : clHi5.length = 72 := rfl
theorem clLo6_chk : tabChk (2 ^ 190) (loQ 2 1) 2 0 clLo6 (bernL 40) = true := by decide +kernel
theorem clHi6_chk : tabChk (2 ^ 240) (hiQ 2 1) 2 0 clHi6 (bernL 75) = true := by decide +kernel
theorem clLo6_len : clLo6.length = 37 := rfl
theorem clHi6_len : clHi6.length = 72 := rfl

end Polylog
