import Mathlib.Data.Rat.Defs

/-! # Exact coefficients (generated by tools/gen_bser.py, certified in BserVals.lean) -/

namespace Polylog

/-- `B_k/k!`, `k < 64` -/
def bernT : List ℚ := [
    1, -1 / 2, 1 / 12, 0, -1 / 720, 0, 1 / 30240, 0, -1 / 1209600, 0, 1 / 47900160, 0, -691 / 1307674368000, 0, 1 / 74724249600, 0,
    -3617 / 10670622842880000, 0, 43867 / 5109094217170944000, 0, -174611 / 802857662698291200000, 0, 77683 / 14101100039391805440000, 0,
    -236364091 / 1693824136731743669452800000, 0, 657931 / 186134520519971831808000000, 0, -3392780147 / 37893265687455865519472640000000, 0,
    1723168255201 / 759790291646040068357842010112000000, 0, -7709321041217 / 134196726836183700385281186201600000000, 0,
    151628697551 / 104199811425742637946218332815360000000, 0, -26315271553053477373 / 713925872841910517552409860896601407488000000000, 0,
    154210205991661 / 165165037094716140555791754978970828800000000, 0,
    -261082718496449122051 / 11039333782344056345696120477635448049500160000000000, 0,
    1520097643918070802691 / 2537441048661701096768915546877587895305109504000000000, 0,
    -2530297234481911294093 / 166746126054911786359100164509098633120050053120000000000, 0,
    25932657025822267968607 / 67466932568130829732947223083550951296312425840640000000000, 0,
    -5609403368997817686249127547 / 576129822649599132654718834688598335537782181720594841600000000000, 0,
    19802288209643185928499101 / 80293206052523318035137285558410989749156973742055751680000000000, 0,
    -61628132164268458257532691681 / 9865115270907751302226185584744768422362331819308031672320000000000000, 0,
    29149963634884862421418123812691 / 184213270476714621616730008661056009704456294528302737023565824000000000000, 0,
    -354198989901889536240773677094747 / 88366967341461600444717101899062958038679034518088079865439846400000000000000, 0,
    2913228046513104891794716413587449 / 28693059009453069463021866149046084071566112435728434318790612746240000000000000, 0,
    -1215233140483755572040304994079820246041491 / 472521648504724881947681632159585722781504396170832356365329971241033924608000000000000000, 0,
    396793078518930920708162576045270521 / 6090962566526697585610281746119502726712054347856432037192871273771827200000000000000, 0]

/-- coefficients of `Li_2(1-e^(-u))/u` -/
def bserT1 : List ℚ := [
    1, -1 / 4, 1 / 36, 0, -1 / 3600, 0, 1 / 211680, 0, -1 / 10886400, 0, 1 / 526901760, 0, -691 / 16999766784000, 0, 1 / 1120863744000, 0,
    -3617 / 181400588328960000, 0, 43867 / 97072790126247936000, 0, -174611 / 16860010916664115200000, 0, 77683 / 324325300906011525120000, 0,
    -236364091 / 42345603418293591736320000000, 0, 657931 / 5025632054039239458816000000, 0, -3392780147 / 1098904704936220100064706560000000, 0,
    1723168255201 / 23553499041027242119093102313472000000, 0, -7709321041217 / 4428491985594062112714279144652800000000, 0,
    151628697551 / 3646993399900992328117641648537600000000, 0, -26315271553053477373 / 26415257295150689149439164853174252077056000000000, 0,
    154210205991661 / 6441436446693929481675878444179862323200000000, 0,
    -261082718496449122051 / 452612685076106310173540939583053370029506560000000000, 0,
    1520097643918070802691 / 109109965092453147161063368515736279498119708672000000000, 0,
    -2530297234481911294093 / 7503575672471030386159507402909438490402252390400000000000, 0,
    25932657025822267968607 / 3170945830702148997448519484926894710926684014510080000000000, 0,
    -5609403368997817686249127547 / 28230361309830357500081222899741318441351326904309147238400000000000, 0,
    19802288209643185928499101 / 4094953508678689219792001563478960477207005660844843335680000000000, 0,
    -61628132164268458257532691681 / 522851109358110819017987835991472726385203586423325678632960000000000000, 0,
    29149963634884862421418123812691 / 10131729876219304188920150476358080533745096199056650536296120320000000000000, 0,
    -354198989901889536240773677094747 / 5036917138463311225348874808246588608204704967531020552330071244800000000000000, 0,
    2913228046513104891794716413587449 / 1692890481557731098318290102793718960222400633707977624808646152028160000000000000, 0,
    -1215233140483755572040304994079820246041491 / 28823820558788217798808579561734729089671768166420773738285128245703069401088000000000000000, 0,
    396793078518930920708162576045270521 / 383730641691181947893447750005528671782859423914955218343150890247625113600000000000000, 0]

/-- coefficients of `Li_3(1-e^(-u))/u` -/
def bserT2 : List ℚ := [
    1, -3 / 8, 17 / 216, -5 / 576, 7 / 54000, 7 / 86400, -19 / 5556600, -1 / 752640, 11 / 127008000, 11 / 435456000, -3263 / 1521428832000,
    -13 / 25291284480, 13399637 / 255251498261760000, 691 / 63465795993600, -697 / 545409184320000, -17 / 71735279616000,
    1437423473 / 46303407173908684800000, 68723 / 13060842359685120000, -177451280177 / 235393992914916460584960000, -43867 / 369801105242849280000,
    18490751491 / 1009486909186776244224000000, 4016053 / 1483680960666442137600000, -8865213901487 / 19897532103002320632826920960000,
    -77683 / 1245409155479084256460800, 51257173898346323 / 4723501099234463941531956019200000000, 236364091 / 163108990944538279280640000000,
    -107154672791057 / 404871522791525480702739087360000000, -19079999 / 562870790052394819387392000000,
    160848242668522274123 / 24883517154793537671124941076090060800000000, 105176184557 / 131868564592346412007764787200000000,
    -116689063169079166575191 / 738109579991391977826170692358153315942400000000, -1723168255201 / 91359026583378393674058093821952000000,
    7075387980704091668093 / 1827531940673913573135059938068318388224000000000, 7709321041217 / 17207854572594069923689770390650880000000,
    -295103472678058156284581 / 3108631831086326987902736954654209578369024000000000, -5610261809387 / 525167049585742895248940397389414400000000,
    228408022041958533489812291793997 / 98010353575471385328347646775054203433104654917959680000000000,
    26315271553053477373 / 102951772022125762838839821991858623479808000000000,
    -240817939379368097027525119 / 4204648373036095466681580728230553557833747529728000000000,
    -6322618445658101 / 1030629831471028717068140551068777971712000000000,
    97020521519712121878817503142491749 / 68853764355081726792616707148001808466047627926740716748800000000000,
    11226556895347312248193 / 76038931092785860109154877849952966164957102080000000000,
    -2476717521211247540513860150306925369 / 71372981610570641175945432432530237560920369558757605541675008000000000,
    -1520097643918070802691 / 426741196806038975563270063528213004259312638361600000000,
    7330669931200534739564617276339458647 / 8570177668473835888711055721608993878933485286362446227832832000000000000,
    118923970020649830822371 / 1380657923734669591053349362135336682234014439833600000000000,
    -8449706376025610983283492969974521741871 / 400401700233281578563141572183074757171630059298703714620529652531200000000000,
    -25932657025822267968607 / 12424930601934951173675831451142118050978027158896640000000000,
    4522512475240986250721055689918794937188055813 / 8679280364098074056119261038571110565794077155205615540656751581511811072000000000000,
    5609403368997817686249127547 / 110707299254236696078749893724475758593534615311016263680000000000000,
    -7504932909859468403728841199899999169900329 / 582857655708661871900560875606118536164437415795248906881711034167459840000000000000,
    -1049521275111088854210452353 / 851750329805167357716736325203623779259057177455727413821440000000000,
    35265976893191214202405185871826659088916860850661 / 110755304808499626107388619340515819517462127825903979272544731874348619739955200000000000000,
    61628132164268458257532691681 / 2053378902206398852870643137711965616349163175771606301540352000000000000,
    -325211848600153331962487697780411995117187970597619 / 41273068823023997461018470307261465912823316143877670615516881639326838003282739200000000000000,
    -29149963634884862421418123812691 / 39815920917072353303826556257968597185243886817345433686497034240000000000000,
    4151784634178575356540717309345735247584281266038449 / 21278559926536816468791744691743689092833354100843599072888703422941836481692434432000000000000000,
    20897740404211482638205646948590073 / 1168564776123488204280938955513208557103491552467196768140576528793600000000000000,
    -114089898841655461238462798574624047757826707337531681783 / 23598914539421906079537490558446386459863915732136650683550368709622005747776956652532531200000000000000,
    -177706910837299398399477701228834389 / 406293715573855463596389624670492550453376152089914629954075076486758400000000000000,
    202604842704069660970697791967832074987115405256263639934139384033 / 1690349628967133713348510148657554015861362230601763339884042963822534174638712450912604916683898880000000000000000,
    1215233140483755572040304994079820246041491 / 113465198390150444668325837004924012924422198496386537890392250871973987483648000000000000000,
    -1440404741276157030357345581834152569112654281147247682651 / 484451917048932051286400936792833318772601808609928734347140594927930234620747578502982035046400000000000000,
    -396793078518930920708162576045270521 / 1511308373429885825549578830791005230406338654188131321474563506206031216640000000000000]

/-- coefficients of `Li_4(1-e^(-u))/u` -/
def bserT3 : List ℚ := [
    1, -7 / 16, 151 / 1296, -137 / 6912, 12493 / 6480000, -161 / 5184000, -291703 / 18670176000, 1207 / 1422489600, 659921 / 2880541440000,
    -1331 / 60963840000, -12129947 / 3124000535040000, 79547 / 146057167872000, 2134239258113 / 30660809971202611200000,
    -764775667 / 57176335610634240000, -54276083819 / 42453429190895923200000, 1638919 / 5026491042693120000,
    2235958482406459 / 94553409585408490708992000000, -4226321107 / 533415250643428048896000,
    -2645701756685362591 / 6088663357698362782856881766400000, 452810241881 / 2353939929149164605849600000,
    74354983068680242651 / 9517542195981124981623652024320000000, -14940683441221 / 3198054528303707141701632000000,
    -9542313674622026563339 / 71023960684414773226201184163672883200000, 7083556368601 / 62372672061656254065351327744000,
    8916135636838763081864593 / 4215117666705485454511505060148412416000000000, -5431593097933316089 / 1964976457281536999677293703987200000000,
    -528099400204494041843723 / 19509973200179675532310394849829794611200000000, 18330159041608357 / 272073663315905123032240666705920000000,
    28521331880761994834012629069 / 214651629966608816958169330352171708304064512000000000,
    -162318906024857086501 / 98711473010751223819338609227464704000000000,
    78481198595084087815386185263384901 / 9474279624494209040241080704025131171013919158304768000000000,
    121508865237783784656095549 / 3023296839644741541175995155898995982100070400000000,
    -489053909233609619872543273533891887 / 1068803526302388190346090578960991756066455027628113920000000000,
    -11315858742107139308172809 / 11504052490550761098089040158720340208386048000000000,
    84294665061604633557772278327363727 / 4987749789411144888281756035151294861643456795597864960000000000,
    10790347083188327097495253 / 447642983676431086257994121470206179285139456000000000,
    -526243356546982036912904593118467279964763523 / 969745557844949523370679087665024588294436447391238412445312614400000000000,
    -37693206680913805773881525068549 / 63732935800948237732230341432334711965056288973389824000000000,
    656382194441627155845863549501879303341597 / 40437266504731485916615189755916083218455264987742760055634657280000000000,
    234560373202257616859765211749 / 16145849752458606592057269996405325662081590514155520000000000,
    -38997398078371630949318859308090281116933916421543 / 83795103799496135475161667161235937303074603234487910891551512846139392000000000000,
    -16529334655657117869498567659222586271 / 46269729646614920404638427203457215289184005966769761655193600000000000,
    96932591061913036988941807562309568321629841288753751 / 7470045471526157792712527340011988612344168021651896075185851696580833228881920000000000,
    1262420043036987370469850183103774463 / 143561654439547803965330241235717963551108400483901012289540587520000000,
    -4296322342821209396390769008194594332742890382734024599 / 12109131612718363522073866696635475607717848067371642641099798988928256237895680000000000000,
    -372721762488119773640039899110087396553 / 1720268390180929967479455548482968953153194137480752842823172096000000000000,
    25113943671744303427762434146124953293324325963686750884997 / 2626164420314718081322530129604661966619743847788449979313978143559663214541823541248000000000000,
    6572343943992988244244948581729996233480811 / 1230034023116641009345970909746405654031247542165617811314267092575846400000000000,
    -5442756331480699001649687853707080492970810016525542993121707911 / 21347203264419309288961668662312507296183176003942461358743934584891827218843527733659566080000000000000,
    -915714412559575749903200055781309044567706954711 / 6943424291278459244895408830856888452635261724164492432525401265209448857600000000000000,
    1565376402844515632332131387256196266445574823569203618135537231 / 232238804744781496660132439293289914540893892790143260935785661967504493919286730289263411200000000000000,
    93540900819840199893243041556573432197676179 / 28713408723331974320996051556175102623679653746544893517962185683196968960000000000000,
    -2555418729757314021769198093981966651511295745475924816984192172405401 / 14437688722374731655229333397851907561390976238179764266663131403485587119334374076178331424784384000000000000000,
    -700584205741820590346542847856767347113517322005681 / 8699325759503970632434887919109606187553388949234639826498058939948837041392844800000000000000,
    3684458291549186282439745542587940192882412164512993671451548418213633 / 797069381163555940060396783436126066502452763639886608382194763898091092663629783903732032998473728000000000000000,
    147348820743072159867287115185302807752638164502410661 / 73961339330859003450145098790612546915779382529828785743006251897673693701882668646400000000000000,
    -27002731284105650697267797861920388315922670112123183415154423741418742779 / 224677917162383148384224645314975215625711385014811237170773060047593917200023963486783985461609774448640000000000000000,
    -194769742383482567488908061036311288562149887720344087 / 3949300722365233136607747814787628695629870521116571987928143355298004851002115830579200000000000000,
    1130080237633224898707904843874532238579244515852065091704667842469321892276149 / 363000457464625630571762230983801785838611431204594414353983442356183023482239943229357370780943637083032911872000000000000000,
    13837908855349472016021831017039160180459911588424266305069 / 11327478978922514918177995468054265500734679551425592328104176980618562758932939193215614976000000000000000,
    -63751748191372121326730604132051501730941258908232760923738245176558850340290191198393447 / 793033487652117021995746725088255947231512507217627017716699224359145907382421575032860271005096991696851442699883406950400000000000000000,
    -4615626002619767247420595787434380716983115946522422370058584756197 / 152438802903217876694702006133481234884951939341540839378633692737450354658327522845936734304584335360000000000000000,
    16262557043250209237632673474798649569660487804258515433979528537494861403548698321 / 7854877144691380339382381869497341951255609380213570369221920553092996262506158899786670573752193062318922922076112158720000000000000,
    275080581973210239128322312121372186017270606887406389637379 / 366335086565986279766602751465251435143244986104541802317394684952271182955061307362747276716933120000000000000]

/-- coefficients of `Li_5(1-e^(-u))/u` -/
def bserT4 : List ℚ := [
    1, -15 / 32, 1085 / 7776, -2375 / 82944, 1567541 / 388800000, -105707 / 311040000, 35635723 / 7841473920000, 1905199 / 796594176000,
    -231609829 / 1814741107200000, -455543 / 14402707200000, 1280051188949 / 389687826740889600000, 2570318231 / 5398272924549120000,
    -111658959584626733 / 1381116185152821621504000000, -24857996101241 / 3434010716774692454400000, 14869975752307411 / 7649258871615627442176000000,
    222947280113 / 2173615574573871267840000, -6687469477100171548171 / 144811383382340665775542517760000000,
    -7853433338999987 / 6807845490149411331047424000000, 1159097738488887139108274321 / 1063046647512598185022483215013183488000000,
    13530356101834149869 / 5845116823390428271542606495744000000, -222166414985378116183152073 / 8654738330900264828719230122229043200000000,
    153131871323274839707 / 335017485298535599353152551256064000000,
    19130159087049105900759047922481 / 31689878455706512058864762744944666508525568000000,
    -591218220195293881214207 / 27273200902815272918861254718850387148800000,
    -106780791873548139130737641910421 / 7522901581224241558321808895104255614632591360000000,
    4982831729151128475362419 / 6642003596020764958624189791749013504000000000,
    8719098850370702290907112664206373 / 26115215489107009981031422307290487347938852864000000000,
    -201555545421700935853832153 / 8740467993680494638475056892723747985817600000000,
    -49107971165152971099836627928271848438757 / 6249285887415453851096597893978854676555534296463441920000000000,
    103058725591010571572024264991989 / 154549173575958348209881917853563629978926448640000000000,
    2110228380235471975989355992114802075056410686661 / 11400996990703385510744568236160994628976554852650807979975639040000000000,
    -90184370488625646646279276291958286787 / 4850831167741035028603433320460867159559126609052041216000000000,
    -2805738583377658756385707817600625761769418293971 / 643079277263637966136006982537375918242732863578091657488026828800000000000,
    5658991029460320642694086536122341049 / 11181329198240368760543716826053452217310606442878730240000000000,
    617728472639609245233534063452723551767026380657 / 6002073254460621017269398503682175236932173393395522136554917068800000000000,
    -91605615191304932389939051802993119 / 6759867949884281072118332885287401977192073210033812275200000000,
    -39335757341832496729844925979618243183356880041142959311911 / 16191512644865880800781746183795460843178900083856817760987272897947546681344000000000000,
    317077707545186458602346455187154330642170629239 / 884407948754593965314059327950502424524526040020809432150125104332800000000000,
    103308987132701248785606194845643866512534885841407828989 / 1800446193714816089044456718506985607272402789247399040603990190968684727500800000000000,
    -243279895539146466900264472728617845812024671 / 25879850563028150986633721443786293259811369592155366435606180659200000000000,
    -34568311395098846567867177169901566529868769973381021973631720811 / 25494682413286615159933924785184479873587157248267559130329483762620661638273244856320000000000000,
    13253735092871478129343521269084012702199736311529 / 54144528608905195230104461858029374872755897474592188576079439069813145600000000000,
    696109041235696925689497227236424744480466144134374705922789128864457 / 21717516009044274065064541730897846308359302974880702136626566475907832465519180228751838412800000000000,
    -3704517147082090306157056220314214326707930840192808067 / 584323556883823898452179916374271109232254920804770537436759954932545177014763520000000000,
    -1440854772578543490827444652474649982530491012666899023765409490130933 / 1901050545875699466415903599061037531834297466909383986698146198916475033907432863716327869644800000000000,
    104079835792958258396195011961629022377432349897085279473 / 636594347640051110874740420623122146234309726970394927417818003989371185077944320000000000000,
    521014287021360978388671809507484951300240858305778237449402086980058824502327 / 29066430050081074350336778389198589744386645025894329252998283125168157271121695165403417418532116234240000000000000,
    -25422769563416066298563236369141820130452504982436361470476289 / 6050682824405110459367109418609141171091889825304588752339405642761464046304361439035392000000000000,
    -16694382300314625132060144447348868367254975422903883750354837496547344351026299871 / 39378531522393369581744812814438157162781751413493808210779239123812390074961357473263472563503651187222118400000000000000,
    35360985528893912830091551838527529607148537629721093002386608423 / 328418511760297065984025671727884727633587323137576328596060532075258880289900426671685632000000000000000,
    8590460987901046728934733076941981488931148999078300105372619509685969089098860057 / 856807608948778810679722300797665397607778767018876266564207620496137718114543821945732699733376146710986752000000000000000,
    -531876557954381708453386815131285469962466365061073322351436559087 / 193222685547658205221230189492017208898023718801399193098573670756963738940846559600667158118400000000000000,
    -41828571285304892886299432699644249965899165990209237129198101002147356731233740867464931 / 176442047181678597130381883519214456993224954826101678326652912352295826859715412619435559581282677309361311837061120000000000000000,
    438063782625742548759837418181907973507420563871542930191713062927707147 / 6237081528065884075059072027872024066520901734893658163198472766305773635552449600909039175506853888000000000000000,
    23580461922964100527617905810150181751749263638382651812034152430011722345237579814469791891 / 4208082901568897367696431565821880915133209926391452012426334605782966011644147027248497532993356701220879202340076257280000000000000000,
    -6899855310035098680264967252029400155391544149760578153976637912690572333 / 3856540493821749060388223796977352360165467451595227365996411145644523942743706346439817068459815285555200000000000000,
    -2908173161754735457303802968219630511080984942498559988468692875680327066890314659880069748137 / 21966192746189644259375372773590218376995355815763379504865466642187082580782447482237157122225321980372989436215198063001600000000000000000,
    1186150001984539814433665087050660596132372591675352411033223468516117222501 / 26062638390836445212570058856537125012582520661718103511809674965520894395202779764466942313546733836042240000000000000000,
    1454594940289457118812695879539322394100981300098445627238273078588564262186150192500328417569906849 / 465308591133881965724246298015486595153491036528598733107760320843658780471733396673858207625475426277554110554683131506298569359360000000000000000,
    -3330246954006653493490969406841162181390915582535127521912654998355096384660977 / 2880003629471409961561088774747518300868322098813311056031604170759799194569837566117215503716577616526542110720000000000000000,
    -3430241424249521999133579299337429438434595788520893377022034494863361356646006744693248330445050689737487467009 / 46506807065261030208884176318132704866778234554646755770184864344305645179114921545454184441255345710987715762422924138316698005617280920059904000000000000000000,
    769635110299179174947223973996090722276427979061820743102318281897544746243407735560003469 / 26222973991696669527326025042918329988455346905329533385832187685475758004112073414419912961235207192109221038609477989826560000000000000000,
    240270841858733054660093227623446275588779994705273647356749028658038975715047669908875058570400329550085283 / 138192873911677852002095362852917541000446158392347117913927740892399670187167117557970017278154139725874308444572073101589913138323962105692160000000000000000,
    -13605933369246827740034599390551496021425659861772289712168500914305636531813057034701 / 18280441354918121517108088714466541268376690921224309222916469650834609483650697075867160608005103854124038800468042842112000000000000000]

/-- coefficients of `Li_6(1-e^(-u))/u` -/
def bserT5 : List ℚ := [
    1, -31 / 64, 7111 / 46656, -34205 / 995328, 133377367 / 23328000000, -12724109 / 18662400000, 164540407607 / 3293419046400000,
    -986967829 / 2007417323520000, -2801782330757 / 9146295180288000000, 8370805069 / 580717154304000000, 2516389626979801 / 675134159828591232000000,
    -6201896077403 / 16626680607611289600000, -102021386437703236445479 / 1990796113926683198100725760000000,
    5602191897308169883 / 618740050948464086433792000000, 928686392723258660611 / 1378243463487703752531271680000000,
    -830901169383195853 / 3916420542267201250394112000000, -12137527987124866552353977483 / 1774263823932449598841733057799782400000000,
    135379908702709608486137 / 27803785609409407828904163409920000000,
    -149842315867461109154849408001931 / 30933668809234420467842190647493677240156160000000,
    -10717555969475321705062038769 / 97192836344008976916341322515491061760000000,
    215039527217995001617835882186131343 / 64472278149772792132976355244249979932114944000000000,
    120568512119502619173097602029 / 48743486279630291515346704048393971302400000000,
    -6095830916326057322666996793893791824973 / 42418715607808401917410493175832701855479090601000960000000,
    -40597788761765821186909815180911 / 737509898605533371551761751155075875107504128000000,
    119498002569315674072194738798671907859710693 / 25174585567242812442289270950005060014229982030594048000000000000,
    63416669421404064483887713765183511 / 52158784296488074804364541672722838928119300096000000000,
    -246576810817321831667804944533425061364411 / 1747835512240000978136083668814637023845110180981243904000000000,
    -623328221427127039254758068346111779 / 23399233078239880943004154387332276663753212166144000000000,
    307929902179787649393625211938673658713683480275983 / 77627448188440903637408807943757927419005145517175698814058627072000000000,
    1411845928358111026649150846333128295591 / 2441723423654389783090245819381237480461258821573017600000000000,
    -1480033231609254936397141365961427624731061403277455509819057 / 13719537266556756308911625920078072034255012049158855869226576347934176051200000000000,
    -144851657572943341524221763556616974573228890370843 / 11674620918480266763002437873828858500071992169114427371495054376960000000000,
    8885161875489277304141015672842694263067458761914647908206903 / 3095431080970593497162733663811163164963711474317131720540705889377222393856000000000000,
    183562364164297078628270755730960591686247662017251 / 699670253662838107155975597000664999048093355572963723346973189734400000000000,
    -271678968768807658977046920282674258499501214095653083154981 / 3611336261132359080023189274446357025790996720036653673964156870940092792832000000000000,
    -12538503130681804593282455239942092363197326526717 / 2304796129712878470631449025413955290981954583063880500437088154419200000000000,
    22495612394058020603536097164620325375463101978159096996004801977794700627 / 11534685633025398356755288739119983700219754968264991464585994483410919139583879678462525440000000000000,
    540385624135415742108456827340079733074254649329900925584989 / 4922219844039227763437650839873820096326385625492472599340130960976054191128576000000000000,
    -4020183112274858010717666552885437792042314646088011603836352664274979 / 80163838376238289738067643746779809499596752675200712881292625753434959271239318228697088000000000000,
    -4905680066097967342982764815876619156052175484698779014787 / 2304571127954964593976904599688941577308675570236670771973107444439916451201024000000000000,
    2945488923215268810903572661174381978351522365743783361011304291043467030767729 / 2298300397862215962044005942809884738090135994181228543001462684602243853976262114285272483810508800000000000000,
    442140470203759585158973079709458989576417990361373438001049189857 / 11421617721152403591650398303762646983367046447223866490387608725654056413946413695631360000000000000,
    -39069035518683604065669699483127897004262488725643326628387107986557524542106150739387 / 1198652675609739075146433982383924430505268316304462101036414666771034291400918385453900744123733272292229120000000000000,
    -172076811489007522511849840139911154841058467533273284100946127322391511 / 275204362866609040952497872813937508419529087297688257475331850382704053003059051858743296367001600000000000,
    616149564542634660198136992241702974565115227907000378529672405125255938195006338539295733 / 746129717133984102271692350481063528561008861312648257018752600395293577102732468096266933439473479231807160320000000000000000,
    526370263967285648634060142776545778412431802945505347733623060669034467 / 69958660088225740364105252445446181171502146782265330710491780120126281247793529384760865602928640000000000000,
    -2236747910273058011389481518861769021510284804203820229738214402959486212628094331686499933545919 / 107235905124707671760657732094366940150502080394215108715222264941860799810146896371857119688087936280326118491910727270400000000000000,
    21415203650746450636225699098666900071488439919273763680170545540749695731231 / 4960670728547170022457476845089892649708654084419298859178373653362032174271435974895516572762814503976960000000000000,
    305403295435871805943282206042185777720552667069398099405932863562174417907605070103442465447233746503 / 581122960475004352312973274501907201527825338561962368016135694764750156146995298380233498274174388122583067100896973769670656000000000000000,
    -26840379648022444862083481214955431454152201055742864387573361661609245240526068419 / 5727786403257217393708336409372822860040982023780917557931525690736347647267106541565596009236894718141399040000000000000000,
    -4177201880221757319920988010824185665507880998212342115112334893257845960954120822134719202082895951 / 316105346632007861972441506459828642589311585261726782602183702097309150871167772195841298511776178154591888148290112105480192000000000000000,
    29336396194104133805583677846127710970706603624787549661651508300561663927556351539 / 129611623753706176451914355320665020147213078938128191596621952773233923903872810883427201123303446193371086848000000000000000,
    73245482892407498733684110501819754115632382559954296079708422492546310266286889033014542071804497776051265711 / 220803756965512968728768332933472893952717165930126116587730814362855494176591022883964640190145132445797818620423764682072358062485667840000000000000000,
    -1680774774628707216889624826165434790647162721120542033600345039483001659326874242549532331 / 203261238353293743894199929814135054456195147959669133432304155029844792542392155337589764637637644260384231236294410240000000000000000,
    -6842254469786923262757798052370555076771277836063847396913746943303555636261643603284674991998701636159524021633 / 822827283386295073373120558415576677738328374660935068993580650768599516553728490088630872844426686485043361634467842330805680738325128806400000000000000000,
    88288088539741781768060570467974248389199050809397692786914439709031020525147724095062832229 / 327864546070063655778782841997948286952987486438847043750782244067959786646361368383882938222786748199470240460583332741120000000000000000,
    3577173338811393748350178011604420679929421232637255173536945307107154953413339394317323470167581939095572372960559 / 17180633677105841132030757259717241031176296462920324240585963988048357905641850873050612624991629213807705390927688547867222613816228689477632000000000000000000,
    -335712585615336259061530467346019185043608237925182290935997558906089460975712020021586047533663 / 40769253736927979745400691867783445307703380394056832361030306087899225269932222527032163618850197595572268393615407604930969600000000000000000,
    -20968348155848891452358251188386515716893374406099151625275182057621995155067357460922830318202753022111883724710632048699 / 4026046093282558129929027106890044774795762793088889142959244619723823792076302191378981034022881852202301660816902349953799012573952142379225551627878400000000000000000,
    72073562658800019660096784450000601748052386041039007773172296318047427167620722444235198542342514131 / 297797498325684458063517630729911420898234263378303189188966605339941619501909373871269252880304272817634630754997204164031084389990400000000000000000,
    11360615549552875522130915941241163206790861346418663040363458714199456492383697917048368538532633869205520934416122805181436627047199497 / 87275329966059171728334786662161087390569846069698202700469046590206554755463110600872834759967419486216093224071997057688638002474139725162018020420322006370908897280000000000000000000,
    -91250572851455219615128541009383833944481778730877347591667281458046116942106955596382770394098431677054651640483 / 13181357888211126276346600830739326636526859622345594778292395837014628576480572049454443133064372270085661153235297355774332691877812192199835648000000000000000000,
    -1580853860724703063144187132134557566327488565668852014770634267940616126719382872137801161446873641977205305959839287012518945555769 / 486252554895159434368573957558297471876842200961519276767487752411330799164909684191496018495290219767293606636466703772058673268398852532715129633432035940573904896000000000000000000,
    2891927366730806508364918571411157515179336453418844466016267808047761777511985163079428873983865748655112913 / 14895737145848223205278489638040795998363880651975099867774948070928132870700960882038031336087351482031083352341242405897691689857235494339870720000000000000000]

end Polylog
