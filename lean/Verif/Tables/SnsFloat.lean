import Mathlib.Data.Rat.Defs
/-! Generated by tools/gen_float_tables.py from /repo/src/tables/spec_noise_shape_quant_tables.rs (scale factor codebooks). Do not edit. -/

namespace Lc3.Tables

/-- common denominator of the entries of `LFCB` -/
def LFCB_den : Nat := 1000000000000000000

/-- numerators of `LFCB` -/
def LFCB_num : List (List Int) :=
  [[2262833655926780000, 813311269061338500, -530193494871435900, -1356648359034418000, -1599521765631959000, -1440987684300950000, -1143816483058210000, -755203767909064100],
   [2945164791913764000, 2411433179566788000, 960455106400727400, -443226488076917200, -1229136124255896000, -1555900391181699000, -1496886559523759000, -1116899865014692000],
   [-2186107070099790000, -1971521356752276000, -1787186196810059000, -1918658956855768000, -1793991218365963000, -1357384042572884000, -705444279353869400, -47817294477771140],
   [693688236528919500, 955609857158219700, 575230787038733300, -114603419462888600, -646050637436029000, -952351370449624700, -1074052472261504000, -758087707094904500],
   [-1297521323152956000, -740369057177852600, -345372483642106400, -313285696247940100, -402977242824476600, -372020853465227200, -78341417732373810, 97044130399229490],
   [914652037830671600, 1742930434352573000, 1909066268599861000, 1544084838426651000, 1093449607614550000, 647479549518277600, 36179075244964210, -297092807178888900],
   [-2514288125789621000, -2891752713843728000, -2004506667594338000, -750912273903126900, 441202104904691400, 1201909876010087000, 1327428572572904000, 1220490811409839000],
   [-922188404812385100, 632495141440552000, 1087364312546411000, 608628624535819700, 131174567547348200, -296149157743752100, -207013516525628700, 134924916642079500],
   [790322288369266400, 628401261876198800, 393117923540449900, 480007710866900700, 447815138050142700, 209734214552234300, 6566919964280205, -86124234206185730],
   [1447755801787238000, 2723999516749523000, 2310832687375278000, 935051269566529400, -274743911383687700, -902077696828601900, -940681511945404400, -633697038974310200],
   [793354526417474400, 14393118552345350, -567834844729678900, -654760467916744900, -479458998475743000, -173894661902888500, 68016270551543810, 295125948369793800],
   [2724253473850336000, 2959475724048243000, 1849535592684608000, 563284922322364300, 139917088125072400, 359641093366222100, 689461354774588700, 639790176833104600],
   [-530830198375400000, -212690682812163800, 5766136283770966, 424871484383745400, 473128952158667500, 858894199321280600, 1191111608544352000, 996189669638358100],
   [1687284108450062000, 2436145092376558000, 2330194290782250000, 1779837778350905000, 1444112953900818000, 1519951770097301000, 1471993937504249000, 977682473891761300],
   [-2951832728018580000, -1593934967733454000, -109918772878022400, 388609072919257400, 512932649517583700, 628112597063496600, 822621796430633900, 875891424655080500],
   [101878342785628100, 589857324228916500, 619047646793465600, 1267313138517963000, 2419610477698038000, 2251742525721865000, 526537030991200500, -396591513227998900],
   [2682545754984259000, 1327380108994199000, 130185273804048200, -338533088511347100, -368219235899666500, -191689946715960700, -154782377153907900, -234207177774392300],
   [4826979236804030000, 3119478044924880000, 1395136713851784000, 250295315918721500, -393613839379793100, -643458173054700700, -642570736856943300, -723193223444072000],
   [87841993647033490, -569586840238501000, -1145060156688110000, -1669684881725975000, -1845344176036817000, -1564680273288019000, -1117467590764198000, -533981663366786200],
   [1391023082043259000, 1981464791994655000, 1112657963887701000, -220107509420743400, -774965611552365500, -594063874149117300, 136937680628923100, 818242891264338100],
   [384585893889182000, -160588785536510000, -539366809557709500, -529309078789857100, 190433547437932400, 2560629181065215000, 2818963982452484000, 656670875696161100],
   [1932273994417191000, 3010301804120569000, 3065438938262036000, 2501101608700079000, 1930895929789344000, 572153810961836700, -811741794081090700, -1176418108619025000],
   [175080462899883700, -750522832248984600, -1039438933422309000, -1135775089376484000, -1041979038374938000, -15206009899338160, 2070483917167066000, 3429489180816891000],
   [-1188170202505555000, 366792873662636400, 1309578304090959000, 1683306872804914000, 1251009242251268000, 942375751628614600, 826250483374133000, 439952741120956300],
   [2533222033270612000, 2112746426959081000, 1262884115020644000, 761513512430427400, 522117937976169900, 118680069757121300, -452346827507370300, -700352426161103200],
   [3998898374856063000, 4079017514519560000, 2822856611024964000, 1726072128495800000, 647144377348619200, -331148521217238000, -884042570848749300, -1126973406454781000],
   [507902593186381300, 1588384497895265000, 1728990238692094000, 1006922302417256000, 377121231816381600, 476370766899497600, 1087547403721699000, 1087562660992209000],
   [3168568251075689000, 3258534581594065000, 2422305913285988000, 1794460776432612000, 1521779106530886000, 1171967065376021000, 489394596980695200, -62279571571876850],
   [1894147667317636000, 1251086946092320000, 590451210720627500, 608358583293713600, 878171010011081600, 1119125109509496000, 1018576615503421000, 620453891011724100],
   [948880604517188100, 2132394392499823000, 2723453503442780000, 2769860768665877000, 2542869732549456000, 2020462638250194000, 830045859400910200, -27556917388826340],
   [-1880267570456275000, -1264310727587049000, 311424976968698600, 1836702103064300000, 2256341918398738000, 2048189984634735000, 2195268374585677000, 2026596138366193000],
   [246375746277128900, 955621773393099300, 1520467767417663000, 1976474004194571000, 1940438671774617000, 2233758472826862000, 1988359777584072000, 1272326725547010000]]

/-- `LFCB`, tables/spec_noise_shape_quant_tables.rs lines 8-137 -/
def LFCB : List (List Rat) := LFCB_num.map (·.map fun n => mkRat n LFCB_den)

/-- common denominator of the entries of `HFCB` -/
def HFCB_den : Nat := 1000000000000000000

/-- numerators of `HFCB` -/
def HFCB_num : List (List Int) :=
  [[232028419124465000, -1008902706044547000, -2142235027894714000, -2375338135706641000, -2230419330496551000, -2175958812236960000, -2290659135409999000, -2532863979798455000],
   [-1295039366736175000, -1799299653843385000, -1887031475315188000, -1809916596873323000, -1763400384792061000, -1834184284679500000, -1804809806874051000, -1736795453174010000],
   [139285716045802700, -258185126171751900, -650804572670110300, -1068157317819692000, -1619287415243023000, -2187625664417564000, -2637575869390537000, -2978977495750963000],
   [-316513102185724800, -477747657209805000, -551162075879754500, -484788283381197000, -238388394455814200, -143024507285503800, 68318667364907350, 88306171728806600],
   [879518405226496200, 298340096007188600, -915386396405710100, -2206459747397620000, -2741421809599509000, -2861390742768913000, -2888415971052714000, -2951826082625207000],
   [-296701922455375100, -975004919174552500, -1358575002469926000, -983721105837444200, -652956939100809000, -989986992921810500, -1614672245988999000, -2407123023851163000],
   [340981100469697100, 268899788946054500, 56333568482803260, 49911404682668530, -95413072741436910, -760166146083885400, -2327581201770068000, -3771554853856562000],
   [-1412297590775968000, -1485221193498518000, -1186035798347001000, -625001634441351600, 153902497468303600, 576386497810755300, 795092603798871400, 596564632144912600],
   [-228839511827379400, -333719069784661600, -809321359324656000, -1635878769237973000, -1884863973309819000, -1644966913163562000, -1405157780466116000, -1466664713261457000],
   [-1071486285444486000, -1417670154562606000, -1548917622654407000, -1452960624755303000, -1031829700622701000, -690642640272584200, -428843804532170600, -494960215408873600],
   [-590988511188051100, -71173775853762820, 345719522947312700, 300549460996250700, -1118652182958568000, -2440891511480490000, -2228547324507349000, -1895092282108533000],
   [-848434098836163900, -583226810708888800, 90042368814287340, 845025007556886400, 1065723845017161000, 737582999377755500, 256590452459912100, -491963359762378400],
   [1140691455623824000, 964016892398292900, 381461205984797500, -482849340608998300, -1816327212605887000, -2802795127285548000, -3233857248338638000, -3459087144914729000],
   [-376283237967464300, 42567546209610520, 516547696592305500, 251716881864629800, -216179967524303200, -534074091124504200, -640786096262195700, -869745032374135000],
   [665004120598402000, 1097907646907945000, 1383426671120792000, 1343273586282854000, 822978836855922300, 215876798515678900, -404925753080292500, -1070256058705229000],
   [-826265953982679300, -671181232766603400, -228495592779471500, 518980852551937300, 1367218963402784000, 2180230382530922000, 2535960927501071000, 2201210988600361000],
   [1410083268321729000, 754441907835468400, -1305505849586310000, -1871337113509707000, -1240086851563054000, -1267129248662737000, -2036708130039070000, -2896851622423807000],
   [361386817574347600, -21999170542782580, -579368833633824200, -879427960941070100, -850685023408118800, -779397050155815700, -732182927291825500, -888348514821254800],
   [437469239330328700, 305440419605960700, -7387865664783739, -495649854710252000, -806651271118392900, -1224318919844005000, -1701577700431810000, -2244919137556108000],
   [648100318996502900, 682299133640679500, 253247464332975600, 73584214378846880, 314216709389010300, 234729880923679000, 144600134479836800, -68212017888017440],
   [1119198330913041000, 1234655325360046000, 589170238085318100, -1371924596531664000, -2370957072415767000, -2007797826823599000, -1666885402243946000, -1926318462584058000],
   [141847497087175900, -110660070633150900, -282824592543628700, -6598134746141936, 285929279627215800, 46044552995297100, -602596415577885800, -2265687286325748000],
   [504046955390251900, 826982162959097200, 1119812362918282000, 1179140443327336000, 1079874291972597000, 697536239067500000, -912548817371080800, -3576847470627726000],
   [-501076050479356700, -325678006081417000, 28079819494707680, 262054554763132600, 360590806085766800, 635623722053699500, 959012467178154400, 1307451566886533000],
   [3749709827096420000, 1523426118470452000, -457715661897854700, -798711008243192300, -386819329309100300, -375901062231203200, -657836899930537700, -1281639642436027000],
   [-1152589909805491000, -1108008859062412000, -562615116512471800, -220562123765674600, -349842880336643700, -753432770250495000, -988596593396383700, -1287904717914711000],
   [1028272464221398000, 1097705193898282000, 768645545764776000, 206081977740765600, -342805735091998200, -754939404625339700, -1041961776319998000, -1503356529555287000],
   [128831971707817400, 689439395264878300, 1123469050095749000, 1309345231065936000, 1355119647139345000, 1423113814707990000, 1157064491909045000, 406319437516838300],
   [1340330303347565000, 1389968250677893000, 1044679217088833000, 635822746244366600, -274733755518482300, -1549233724306950000, -2442397102780069000, -3024576069445502000],
   [2138431054193125000, 4247112673031041000, 2897341098304393000, 932730658026814800, -292822249729809600, -810404296853182300, -788868098756482800, -935353148761337700],
   [564830487355396100, 1591849779587432000, 2397716990151462000, 3036973436007040000, 2664243503371508000, 1393044850326060000, 403834023595745400, -656270971328113500],
   [-422460547586086500, 326149625049801100, 1391713133422612000, 2231466146364735000, 2611794421696881000, 2665403401965702000, 2401035541057067000, 1759203796708810000]]

/-- `HFCB`, tables/spec_noise_shape_quant_tables.rs lines 141-270 -/
def HFCB : List (List Rat) := HFCB_num.map (·.map fun n => mkRat n HFCB_den)

/-- common denominator of the entries of `SNS_VQ_REG_ADJ_GAINS` -/
def SNS_VQ_REG_ADJ_GAINS_den : Nat := 4096

/-- part 0 of the numerators of `SNS_VQ_REG_ADJ_GAINS` -/
def SNS_VQ_REG_ADJ_GAINS_num_0 : List Int :=
  [8915, 12054]

/-- numerators of `SNS_VQ_REG_ADJ_GAINS` -/
def SNS_VQ_REG_ADJ_GAINS_num : List Int :=
  List.flatten [SNS_VQ_REG_ADJ_GAINS_num_0]

/-- `SNS_VQ_REG_ADJ_GAINS`, tables/spec_noise_shape_quant_tables.rs lines 272-272 -/
def SNS_VQ_REG_ADJ_GAINS : List Rat := SNS_VQ_REG_ADJ_GAINS_num.map fun n => mkRat n SNS_VQ_REG_ADJ_GAINS_den

/-- common denominator of the entries of `SNS_VQ_REG_LF_ADJ_GAINS` -/
def SNS_VQ_REG_LF_ADJ_GAINS_den : Nat := 4096

/-- part 0 of the numerators of `SNS_VQ_REG_LF_ADJ_GAINS` -/
def SNS_VQ_REG_LF_ADJ_GAINS_num_0 : List Int :=
  [6245, 15043, 17861, 21014]

/-- numerators of `SNS_VQ_REG_LF_ADJ_GAINS` -/
def SNS_VQ_REG_LF_ADJ_GAINS_num : List Int :=
  List.flatten [SNS_VQ_REG_LF_ADJ_GAINS_num_0]

/-- `SNS_VQ_REG_LF_ADJ_GAINS`, tables/spec_noise_shape_quant_tables.rs lines 273-274 -/
def SNS_VQ_REG_LF_ADJ_GAINS : List Rat := SNS_VQ_REG_LF_ADJ_GAINS_num.map fun n => mkRat n SNS_VQ_REG_LF_ADJ_GAINS_den

/-- common denominator of the entries of `SNS_VQ_NEAR_ADJ_GAINS` -/
def SNS_VQ_NEAR_ADJ_GAINS_den : Nat := 4096

/-- part 0 of the numerators of `SNS_VQ_NEAR_ADJ_GAINS` -/
def SNS_VQ_NEAR_ADJ_GAINS_num_0 : List Int :=
  [7099, 9132, 11253, 14808]

/-- numerators of `SNS_VQ_NEAR_ADJ_GAINS` -/
def SNS_VQ_NEAR_ADJ_GAINS_num : List Int :=
  List.flatten [SNS_VQ_NEAR_ADJ_GAINS_num_0]

/-- `SNS_VQ_NEAR_ADJ_GAINS`, tables/spec_noise_shape_quant_tables.rs lines 275-275 -/
def SNS_VQ_NEAR_ADJ_GAINS : List Rat := SNS_VQ_NEAR_ADJ_GAINS_num.map fun n => mkRat n SNS_VQ_NEAR_ADJ_GAINS_den

/-- common denominator of the entries of `SNS_VQ_FAR_ADJ_GAINS` -/
def SNS_VQ_FAR_ADJ_GAINS_den : Nat := 4096

/-- part 0 of the numerators of `SNS_VQ_FAR_ADJ_GAINS` -/
def SNS_VQ_FAR_ADJ_GAINS_num_0 : List Int :=
  [4336, 5067, 5895, 8149, 10235, 12825,
   16868, 19882]

/-- numerators of `SNS_VQ_FAR_ADJ_GAINS` -/
def SNS_VQ_FAR_ADJ_GAINS_num : List Int :=
  List.flatten [SNS_VQ_FAR_ADJ_GAINS_num_0]

/-- `SNS_VQ_FAR_ADJ_GAINS`, tables/spec_noise_shape_quant_tables.rs lines 276-285 -/
def SNS_VQ_FAR_ADJ_GAINS : List Rat := SNS_VQ_FAR_ADJ_GAINS_num.map fun n => mkRat n SNS_VQ_FAR_ADJ_GAINS_den

/-- common denominator of the entries of `D` -/
def D_den : Nat := 100000000000000000

/-- numerators of `D` -/
def D_num : List (List Int) :=
  [[25000000000000000, 35185093438159570, 34675996133053690, 33832950029358820, 32664074121909410, 31180625324666780, 29396890060483970, 27330046675043940, 25000000000000010, 22429189658565910, 19642373959677560, 16666391461943670, 13529902503654930, 10263113188058930, 6897484482073578, 3465429229977293],
   [25000000000000000, 33832950029358820, 29396890060483970, 22429189658565910, 13529902503654930, 3465429229977286, -6897484482073579, -16666391461943660, -25000000000000010, -31180625324666780, -34675996133053690, -35185093438159560, -32664074121909410, -27330046675043940, -19642373959677560, -10263113188058930],
   [25000000000000000, 31180625324666780, 19642373959677560, 3465429229977286, -13529902503654930, -27330046675043940, -34675996133053690, -33832950029358820, -25000000000000010, -10263113188058940, 6897484482073574, 22429189658565900, 32664074121909410, 35185093438159570, 29396890060483970, 16666391461943670],
   [25000000000000000, 27330046675043940, 6897484482073575, -16666391461943660, -32664074121909410, -33832950029358820, -19642373959677550, 3465429229977288, 25000000000000010, 35185093438159570, 29396890060483970, 10263113188058930, -13529902503654930, -31180625324666790, -34675996133053690, -22429189658565900],
   [25000000000000000, 22429189658565910, -6897484482073575, -31180625324666780, -32664074121909410, -10263113188058940, 19642373959677550, 35185093438159570, 25000000000000010, -3465429229977282, -29396890060483970, -33832950029358820, -13529902503654930, 16666391461943670, 34675996133053690, 27330046675043940],
   [25000000000000000, 16666391461943660, -19642373959677560, -35185093438159560, -13529902503654930, 22429189658565910, 34675996133053690, 10263113188058940, -25000000000000010, -33832950029358820, -6897484482073574, 27330046675043940, 32664074121909410, 3465429229977289, -29396890060483970, -31180625324666770],
   [25000000000000000, 10263113188058940, -29396890060483970, -27330046675043930, 13529902503654930, 35185093438159570, 6897484482073579, -31180625324666780, -25000000000000010, 16666391461943660, 34675996133053690, 3465429229977293, -32664074121909410, -22429189658565910, 19642373959677560, 33832950029358820],
   [25000000000000000, 3465429229977287, -34675996133053690, -10263113188058930, 32664074121909410, 16666391461943660, -29396890060483970, -22429189658565910, 25000000000000010, 27330046675043930, -19642373959677560, -31180625324666780, 13529902503654930, 33832950029358820, -6897484482073578, -35185093438159560],
   [25000000000000000, -3465429229977287, -34675996133053690, 10263113188058930, 32664074121909410, -16666391461943660, -29396890060483970, 22429189658565910, 25000000000000010, -27330046675043930, -19642373959677560, 31180625324666780, 13529902503654930, -33832950029358820, -6897484482073578, 35185093438159560],
   [25000000000000000, -10263113188058940, -29396890060483970, 27330046675043930, 13529902503654930, -35185093438159570, 6897484482073579, 31180625324666780, -25000000000000010, -16666391461943660, 34675996133053690, -3465429229977293, -32664074121909410, 22429189658565910, 19642373959677560, -33832950029358820],
   [25000000000000000, -16666391461943660, -19642373959677560, 35185093438159560, -13529902503654930, -22429189658565910, 34675996133053690, -10263113188058940, -25000000000000010, 33832950029358820, -6897484482073574, -27330046675043940, 32664074121909410, -3465429229977289, -29396890060483970, 31180625324666770],
   [25000000000000000, -22429189658565910, -6897484482073575, 31180625324666780, -32664074121909410, 10263113188058940, 19642373959677550, -35185093438159570, 25000000000000010, 3465429229977282, -29396890060483970, 33832950029358820, -13529902503654930, -16666391461943670, 34675996133053690, -27330046675043940],
   [25000000000000000, -27330046675043940, 6897484482073575, 16666391461943660, -32664074121909410, 33832950029358820, -19642373959677550, -3465429229977288, 25000000000000010, -35185093438159570, 29396890060483970, -10263113188058930, -13529902503654930, 31180625324666790, -34675996133053690, 22429189658565900],
   [25000000000000000, -31180625324666780, 19642373959677560, -3465429229977286, -13529902503654930, 27330046675043940, -34675996133053690, 33832950029358820, -25000000000000010, 10263113188058940, 6897484482073574, -22429189658565900, 32664074121909410, -35185093438159570, 29396890060483970, -16666391461943670],
   [25000000000000000, -33832950029358820, 29396890060483970, -22429189658565910, 13529902503654930, -3465429229977286, -6897484482073579, 16666391461943660, -25000000000000010, 31180625324666780, -34675996133053690, 35185093438159560, -32664074121909410, 27330046675043940, -19642373959677560, 10263113188058930],
   [25000000000000000, -35185093438159570, 34675996133053690, -33832950029358820, 32664074121909410, -31180625324666780, 29396890060483970, -27330046675043940, 25000000000000010, -22429189658565910, 19642373959677560, -16666391461943670, 13529902503654930, -10263113188058930, 6897484482073578, -3465429229977293]]

/-- `D`, tables/spec_noise_shape_quant_tables.rs lines 310-412 -/
def D : List (List Rat) := D_num.map (·.map fun n => mkRat n D_den)

end Lc3.Tables
