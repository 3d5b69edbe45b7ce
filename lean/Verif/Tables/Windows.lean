import Mathlib.Data.Rat.Defs
/-! Generated by tools/gen_float_tables.py from /repo/src/tables/mdct_windows.rs (transform windows). Do not edit. -/

namespace Lc3.Tables

/-- common denominator of the entries of `W_N80_10MS` -/
def W_N80_10MS_den : Nat := 10000000000000000000

/-- part 0 of the numerators of `W_N80_10MS` -/
def W_N80_10MS_num_0 : List Int :=
  [-7078546706512391, -20981977279007240, -45251980760023700, -82339763273006120, -133771309625793400, -199972155740150200,
   -280090946427478200, -372150208224505500, -473176826160617500, -579465483403405500, -686760675353144100, -790464744078869200,
   -885970546808592500, -968830362304919900, -1034961241263523000, -1080766457616878000, -1103242262600913000, -1099809851424550000,
   -1068172142230882000, -1006190418791648000, -911645250649252700, -782061748325473000, -614668812416694800, -406336285570162300,
   -153632952078876600, 147015506874630300, 498973650908055800, 905036925715207900, 1366911019414417000, 1884686389218322000,
   2456456803467095000, 3077789078889820000, 3741642373060188000, 4438114799213576000, 5154735456539700000, 5876661722564289000,
   6587619767809000000, 7270576699841359000, 7908752989295335000, 8486643364959733000, 8991320235484349000, 9413348145272842000,
   9747634827941575000, 9994114730415857000, 10157603737916030000, 10247361640696970000, 10276342944562050000, 10259914939838360000,
   10214272106032840000, 10154398595493570000, 10093669254995500000, 10035081624164490000, 9988898206257559000, 9953133902427869000,
   9925943919208190000, 9905771957917731000, 9891371616557014000, 9881790747212391000, 9876249269174586000, 9874056275509585000,
   9874524849192456000, 9876951134084213000, 9880640617030884000, 9884926873551375000, 9889230031022089000, 9893074965384659000,
   9896146331889107000, 9898319269347060000, 9899693102025342000, 9900603352632121000, 9901575015155720000, 9903255289051605000,
   9906303787150326000, 9911298894709990000, 9918665491182922000, 9928619727154252000, 9941156069136238000, 9956033775539884000,
   9972793109558521000, 9990784840729244000, 10009223659019450000, 10027281113869090000, 10044160380982370000, 10059192241279110000,
   10071893450255250000, 10082001463694260000, 10089494935257530000, 10094582414251430000, 10097689808173840000, 10099403362286940000,
   10100394535391070000, 10101323239964010000, 10102725248485190000, 10104943545323530000, 10108080687743160000, 10112010711279270000,
   10116412724060230000, 10120801259346870000, 10124581831220330000, 10127069558002890000, 10127550138439850000, 10125301344116190000,
   10119623311008640000, 10109821355069860000, 10095124380495100000, 10074608602863950000, 10047086774910860000, 10011114132423020000,
   9965041017623596000, 9907199995730845000, 9823765865983288000, 9708821747608998000, 9546732976073705000, 9321553861564006000,
   9018003682081348000, 8623984077953557000, 8132817365236141000, 7544551974836834000, 6866580716267418000, 6113488038789190000]

/-- part 1 of the numerators of `W_N80_10MS` -/
def W_N80_10MS_num_1 : List Int :=
  [5306181649316597000, 4471309850999502000, 3639114681156236000, 2841647033392408000, 2110209448747969000, 1472287968327703000,
   948266534950229100, 548243660832847700, 270146140505626400, 99967435883675190, 0, 0,
   0, 0, 0, 0, 0, 0,
   0, 0, 0, 0, 0, 0,
   0, 0, 0, 0, 0, 0,
   0, 0, 0, 0, 0, 0,
   0, 0, 0, 0]

/-- numerators of `W_N80_10MS` -/
def W_N80_10MS_num : List Int :=
  List.flatten [W_N80_10MS_num_0, W_N80_10MS_num_1]

/-- `W_N80_10MS`, tables/mdct_windows.rs lines 6-41 -/
def W_N80_10MS : List Rat := W_N80_10MS_num.map fun n => mkRat n W_N80_10MS_den

/-- common denominator of the entries of `W_N160_10MS` -/
def W_N160_10MS_den : Nat := 10000000000000000000

/-- part 0 of the numerators of `W_N160_10MS` -/
def W_N160_10MS_num_0 : List Int :=
  [-4619898752628163, -9747166718929050, -16644730969737250, -25971069167377890, -38062851633522410, -53246087217167630,
   -71758852777710990, -93824808608991080, -119527030074319300, -148952815950629600, -182066639996546800, -218757092578686200,
   -258847193715761900, -302086273824526400, -348159779353834200, -396706799267297900, -447269804591441700, -499422586325650000,
   -552633479459356500, -606371723524399600, -660096151944065700, -713196626644339000, -765117822589049000, -815296400531953200,
   -863113754490567700, -908041129124572800, -949537775887033500, -987073651421442600, -1020202684361974000, -1048438825017798000,
   -1071382314127799000, -1088690135027248000, -1099969655786929000, -1104898474883336000, -1103225838568563000, -1094621746650760000,
   -1078834293141886000, -1055612509762041000, -1024650162703341000, -985701456619462900, -938468492071542500, -882630999300078500,
   -817879271680951200, -743878560021146300, -660218979771524100, -566565564113316100, -462445689342022400, -347458577614592900,
   -221158160812052800, -83104256962089360, 67176976352906760, 230064206107782300, 406010646262508500, 595323909091555700,
   798335418981651100, 1015233140203748000, 1246171387327525000, 1491152519299797000, 1750067399059861000, 2022699854906251000,
   2308655379767671000, 2607365124918583000, 2918144694729168000, 3240095704645023000, 3572175180786021000, 3913146885756875000,
   4261571642320424000, 4615925445090212000, 4974471592901086000, 5335326819631583000, 5696546730080154000, 6056083823929643000,
   6411830842823245000, 6761653499550255000, 7103400549562944000, 7434943718765665000, 7754281892901473000, 8059437233154637000,
   8348589373399948000, 8620108336276733000, 8872599706865123000, 9104863121445679000, 9315962496426278000, 9505220861927248000,
   9672366712325431000, 9817397501303696000, 9940557180662704000, 10042475141024170000, 10124074282828840000, 10186509905618480000,
   10231188413844600000, 10259724509694400000, 10273975239392100000, 10275858306881430000, 10267386736474820000, 10250617776482340000,
   10227565146151060000, 10200091395492750000, 10169964995608450000, 10139159461006290000, 10110448696391640000, 10077738584554000000,
   10048487539627340000, 10022450091356840000, 9999393169239009000, 9979055415627330000, 9961203379971326000, 9945597525471822000,
   9932031606606762000, 9920297273323891000, 9910230654424902000, 9901668953434221000, 9894488374513719000, 9888556356037892000,
   9883778520531268000, 9880051626345804000, 9877295459610343000, 9875412739766566000, 9874329809802893000, 9873949921033299000]

/-- part 1 of the numerators of `W_N160_10MS` -/
def W_N160_10MS_num_1 : List Int :=
  [9874197049003676000, 9874973205882319000, 9876201238703241000, 9877781920433015000, 9879637979933339000, 9881678007807095000,
   9883835200189653000, 9886022219397892000, 9888182771263505000, 9890247977602895000, 9892178658748239000, 9893923680007577000,
   9895463342815009000, 9896772011542693000, 9897859195209235000, 9898725363809847000, 9899410789223559000, 9899945557067980000,
   9900394023736973000, 9900814722948890000, 9901293790312005000, 9901902265696609000, 9902734448815004000, 9903862280081246000,
   9905379830873822000, 9907348826312993000, 9909842592301273000, 9912905118607647000, 9916586940166509000, 9920906151219310000,
   9925887208794144000, 9931516528513824000, 9937790866568735000, 9944668184371617000, 9952116634297566000, 9960068616185641000,
   9968461329825753000, 9977203369515556000, 9986213520769593000, 9995382582242990000, 10004619550796600000, 10013805512171090000,
   10022848717862260000, 10031638453649700000, 10040091474620430000, 10048113750533640000, 10055639680080370000, 10062598553608670000,
   10068955704085630000, 10074666162980570000, 10079724419901870000, 10084114686168520000, 10087860097872690000, 10090977638503330000,
   10093517625462960000, 10095524019009610000, 10097070937781620000, 10098220902204070000, 10099069584480990000, 10099690214004740000,
   10100178904288770000, 10100608092995300000, 10101065649659650000, 10101611310933720000, 10102310784942490000, 10103194845245120000,
   10104304704945120000, 10105640992810000000, 10107213602432340000, 10108996556745780000, 10110969939930370000, 10113081676707530000,
   10115291851538090000, 10117530085698030000, 10119738765116030000, 10121828370949550000, 10123730287377740000, 10125350586024530000,
   10126609755298580000, 10127405752966030000, 10127659224499600000, 10127269589549610000, 10126159041162650000, 10124228885216010000,
   10121404602111940000, 10117588105831500000, 10112699609477440000, 10106636767352280000, 10099307548079230000, 10090582498738330000,
   10080343082954210000, 10068433525068550000, 10054700056370520000, 10038947724033710000, 10020988544005750000, 10000606867587580000,
   9977600196406868000, 9951746430061121000, 9922861082472264000, 9890757868707590000, 9847362453480265000, 9798613526271561000,
   9741378617337759000, 9673331975559332000, 9592539757044516000, 9496984081652284000, 9384634163826711000, 9253567968750328000,
   9101986790930605000, 8928338316495705000, 8731437835983047000, 8510420440685049000, 8264839911291133000, 7994681492797084000,
   7700431275216928000, 7383028603058783000, 7043814340356083000, 6684616478236647000, 6307755329382612000, 5915799587176216000]

/-- part 2 of the numerators of `W_N160_10MS` -/
def W_N160_10MS_num_2 : List Int :=
  [5511703155400274000, 5098915423728179000, 4681017110047964000, 4261772971493010000, 3845172335531009000, 3435228672445613000,
   3036004651973099000, 2651434678028531000, 2285283969438072000, 1941021906320984000, 1621735416384830000, 1330015240938615000,
   1067840430193724000, 836505723662304100, 636518811138135600, 467653841225762100, 328807275073221500, 218305756464627000,
   133638142580301900, 67581248896977870, 0, 0, 0, 0,
   0, 0, 0, 0, 0, 0,
   0, 0, 0, 0, 0, 0,
   0, 0, 0, 0, 0, 0,
   0, 0, 0, 0, 0, 0,
   0, 0, 0, 0, 0, 0,
   0, 0, 0, 0, 0, 0,
   0, 0, 0, 0, 0, 0,
   0, 0, 0, 0, 0, 0,
   0, 0, 0, 0, 0, 0,
   0, 0]

/-- numerators of `W_N160_10MS` -/
def W_N160_10MS_num : List Int :=
  List.flatten [W_N160_10MS_num_0, W_N160_10MS_num_1, W_N160_10MS_num_2]

/-- `W_N160_10MS`, tables/mdct_windows.rs lines 44-112 -/
def W_N160_10MS : List Rat := W_N160_10MS_num.map fun n => mkRat n W_N160_10MS_den

/-- common denominator of the entries of `W_N240_10MS` -/
def W_N240_10MS_den : Nat := 10000000000000000000

/-- part 0 of the numerators of `W_N240_10MS` -/
def W_N240_10MS_num_0 : List Int :=
  [-3613496418928369, -7078546706512391, -10744436371109030, -15334785379645090, -20981977279007240, -27784208718157400,
   -35841299206730410, -45251980760023700, -56093272437120550, -68432345361056240, -82339763273006120, -97853147555570230,
   -114988030307155100, -133771309625793400, -154218167951161800, -176297991096172700, -199972155740150200, -225208056139014900,
   -251940630038903000, -280090946427478200, -309576509295672800, -340299626694834900, -372150208224505500, -405005324756839300,
   -438721921870618900, -473176826160617500, -508232534267266700, -543716663515951800, -579465483403405500, -615342620173249900,
   -651170816311370900, -686760675353144100, -721944780525077100, -756569597559217000, -790464744078869200, -823444255732225100,
   -855332457990518500, -885970546808592500, -915209110079819900, -942884744675596500, -968830362304919800, -992912325853781300,
   -1015008467688577000, -1034961241263523000, -1052637003544443000, -1067939984687745000, -1080766457616878000, -1090997300590506000,
   -1098524491515805000, -1103242262600913000, -1105084619148789000, -1103977408741932000, -1099809851424550000, -1092492774392824000,
   -1081974227416502000, -1068172142230882000, -1050995803285455000, -1030360111111103000, -1006190418791648000, -978412002341177100,
   -946930421688302700, -911645250649252700, -872464453286699600, -829304391404463200, -782061748325473000, -730614242745686200,
   -674846818210599100, -614668812416694800, -549949725820036200, -480544442445482000, -406336285570162300, -327204559022933500,
   -243012258245185300, -153632952078876600, -58914342698906590, 41265958585832950, 147015506874630300, 258473819145981400,
   375765277224680100, 498973650908055800, 628203403059290200, 763539772856612100, 905036925715207900, 1052747118478660000,
   1206703467513333000, 1366911019414417000, 1533343890681390000, 1705954709184399000, 1884686389218322000, 2069449962574092000,
   2260093000067393000, 2456456803467095000, 2658346019332584000, 2865543814049772000, 3077789078889820000, 3294769437072290000,
   3516171481750350000, 3741642373060188000, 3970739591211551000, 4203043046885219000, 4438114799213576000, 4675442291623012000,
   4914498631045615000, 5154735456539700000, 5395557644293222000, 5636399817032525000, 5876661722564289000, 6115695310143157000,
   6352890592874099000, 6587619767809000000, 6819230974423550000, 7047092819314779000, 7270576699841359000, 7489068963384272000,
   7701990187606995000, 7908752989295335000, 8108788692151807000, 8301579139160681000, 8486643364959733000, 8663548164329093000]

/-- part 1 of the numerators of `W_N240_10MS` -/
def W_N240_10MS_num_1 : List Int :=
  [8831896853053627000, 8991320235484349000, 9141540563656075000, 9282282546151819000, 9413348145272842000, 9534619388400459000,
   9646048250501910000, 9747634827941575000, 9839435385219192000, 9921529097154242000, 9994114730415857000, 10057460846502360000,
   10111839713478150000, 10157603737916030000, 10195150724123870000, 10224909370346410000, 10247361640696970000, 10263040957006930000,
   10272509782922140000, 10276342944562050000, 10275110636448430000, 10269427951155980000, 10259914939838360000, 10247161499690840000,
   10231759761634070000, 10214272106032840000, 10195215666342390000, 10175101183275080000, 10154398595493570000, 10134609168391740000,
   10116549010404750000, 10093669254995500000, 10072631821328940000, 10053131923868660000, 10035081624164490000, 10018407873193780000,
   10003039272343800000, 9988898206257559000, 9975915283480670000, 9964015284765968000, 9953133902427869000, 9943201078053212000,
   9934158959186011000, 9925943919208190000, 9918510277326026000, 9911797988363887000, 9905771957917731000, 9900381047643838000,
   9895594394179152000, 9891371616557014000, 9887684373604154000, 9884497924570929000, 9881790747212391000, 9879528358230726000,
   9877691368590689000, 9876249269174586000, 9875179947346887000, 9874458127312921000, 9874056275509585000, 9873951115886979000,
   9874115368168944000, 9874524849192456000, 9875149888347144000, 9875968894760857000, 9876951134084213000, 9878075819424549000,
   9879311998177238000, 9880640617030884000, 9882032571565917000, 9883471084085503000, 9884926873551375000, 9886386592120545000,
   9887825578295630000, 9889230031022089000, 9890581715933395000, 9891867674284610000, 9893074965384659000, 9894196399062921000,
   9895220757174378000, 9896146331889107000, 9896970346678272000, 9897692596535289000, 9898319269347060000, 9898852572653667000,
   9899307640365727000, 9899693102025343000, 9900025692522435000, 9900321562263099000, 9900603352632121000, 9900889812894406000,
   9901206586012907000, 9901575015155720000, 9902023946214220000, 9902575406142213000, 9903255289051605000, 9904087914462694000,
   9905096491583045000, 9906303787150326000, 9907727108894024000, 9909387444078919000, 9911298894709990000, 9913476318763218000,
   9915928560402563000, 9918665491182922000, 9921691315380984000, 9925010851461232000, 9928619727154252000, 9932519181564613000,
   9936700207375173000, 9941156069136238000, 9945873147903244000, 9950837402063278000, 9956033775539884000, 9961439922621166000,
   9967034533921340000, 9972793109558521000, 9978690858367024000, 9984697087896268000, 9990784840729244000, 9996919011206490000]

/-- part 2 of the numerators of `W_N240_10MS` -/
def W_N240_10MS_num_2 : List Int :=
  [10003081938335260000, 10009223659019450000, 10015326365906760000, 10021354646551770000, 10027281113869090000, 10033074497701870000,
   10038709340896860000, 10044160380982370000, 10049405488151710000, 10054421418101600000, 10059192241279110000, 10063703031493140000,
   10067939278245380000, 10071893450255250000, 10075555734558950000, 10078926749613360000, 10082001463694260000, 10084784232848510000,
   10087278849976190000, 10089494935257530000, 10091441127347610000, 10093132249295750000, 10094582414251430000, 10095812805556820000,
   10096840906871640000, 10097689808173840000, 10098383087087990000, 10098945482578070000, 10099403362286940000, 10099779166436800000,
   10100102302902630000, 10100394535391070000, 10100682020386940000, 10100983886893420000, 10101323239964010000, 10101716567756400000,
   10102180961484120000, 10102725248485190000, 10103364902947710000, 10104102214832150000, 10104943545323530000, 10105888736994220000,
   10106935011869280000, 10108080687743160000, 10109314367393420000, 10110628765030410000, 10112010711279270000, 10113447006944170000,
   10114919042281840000, 10116412724060230000, 10117902824749630000, 10119375672544850000, 10120801259346870000, 10122162354873530000,
   10123429079513340000, 10124581831220330000, 10125588796968510000, 10126428573808470000, 10127069558002890000, 10127489529074040000,
   10127657998944530000, 10127550138439850000, 10127137986782110000, 10126397750034570000, 10125301344116190000, 10123823094734700000,
   10121940681175240000, 10119623311008640000, 10116851737246010000, 10113591435721470000, 10109821355069860000, 10105507159713680000,
   10100621331519220000, 10095124380495100000, 10088986893941600000, 10082159236009730000, 10074608602863950000, 10066277418233890000,
   10057123376567490000, 10047086774910860000, 10036114672855880000, 10024142863922680000, 10011114132423020000, 9996961651093181000,
   9981625949525345000, 9965041017623596000, 9947148884277037000, 9927891912841345000, 9907199995730845000, 9884793707533194000,
   9855347660016696000, 9823765865983286000, 9789747333404933000, 9751623811486372000, 9708821747608998000, 9660805524695870000,
   9606976399184645000, 9546732976073706000, 9479479345282376000, 9404609052933396000, 9321553861564006000, 9229775478442888000,
   9128745354570823000, 9018003682081348000, 8897163275605041000, 8765908974996186000, 8623984077953557000, 8471200801854385000,
   8307479727020245000, 8132817365236141000, 7947291447585267000, 7751108841891807000, 7544551974836834000, 7327963552921717000,
   7101790843209148000, 6866580716267418000, 6622962432368731000, 6371684119604742000, 6113488038789190000, 5849206604934815000]

/-- part 3 of the numerators of `W_N240_10MS` -/
def W_N240_10MS_num_3 : List Int :=
  [5579747428663487000, 5306181649316717000, 5029523957059122000, 4750868825511614000, 4471309850999535000, 4192049917945288000,
   3914252910998820000, 3639114681156252000, 3367837772954476000, 3101627843160973000, 2841647033392418000, 2589033711808454000,
   2344880603710975000, 2110209448747974000, 1885997642296488000, 1673100807904834000, 1472287968327706000, 1284223074167396000,
   1109422548710344000, 948266534950230600, 800991436682955800, 667676584739840300, 548243660832848500, 442458885157128100,
   349936100071762100, 270146140505626700, 202437018067014500, 146079675513753800, 99967435883675310, 53052350988714440,
   0, 0, 0, 0, 0, 0,
   0, 0, 0, 0, 0, 0,
   0, 0, 0, 0, 0, 0,
   0, 0, 0, 0, 0, 0,
   0, 0, 0, 0, 0, 0,
   0, 0, 0, 0, 0, 0,
   0, 0, 0, 0, 0, 0,
   0, 0, 0, 0, 0, 0,
   0, 0, 0, 0, 0, 0,
   0, 0, 0, 0, 0, 0,
   0, 0, 0, 0, 0, 0,
   0, 0, 0, 0, 0, 0,
   0, 0, 0, 0, 0, 0,
   0, 0, 0, 0, 0, 0,
   0, 0, 0, 0, 0, 0]

/-- numerators of `W_N240_10MS` -/
def W_N240_10MS_num : List Int :=
  List.flatten [W_N240_10MS_num_0, W_N240_10MS_num_1, W_N240_10MS_num_2, W_N240_10MS_num_3]

/-- `W_N240_10MS`, tables/mdct_windows.rs lines 115-216 -/
def W_N240_10MS : List Rat := W_N240_10MS_num.map fun n => mkRat n W_N240_10MS_den

/-- common denominator of the entries of `W_N320_10MS` -/
def W_N320_10MS_den : Nat := 10000000000000000000

/-- part 0 of the numerators of `W_N320_10MS` -/
def W_N320_10MS_num_0 : List Int :=
  [-3021153494057143, -5867737487939294, -8366504004139796, -11266353557254940, -14704929416943310, -18734733910184950,
   -23392923620820210, -28720080694192640, -34762563850864070, -41559638167055280, -49145637876655040, -57551725039532510,
   -66806233805331220, -76938169246505670, -87967607497501910, -99905030737059820, -112757411713862100, -126533415212968500,
   -141243898652270200, -156888962043029000, -173451208936611700, -190909736836279700, -209254671116875400, -228468479281885600,
   -248520771623495100, -269374670432834900, -290995248619399900, -313350462949383200, -336396072836135200, -360082097445796900,
   -384360174174697100, -409174603485016100, -434465489494834400, -460178672462404800, -486259850928249700, -512647420465566300,
   -539264475355661600, -566038431108104700, -592911674707208000, -619826820251192600, -646702554807118400, -673454221618452600,
   -700009901719828000, -726305701135432100, -752278496137715100, -777852594234771400, -802948024783987800, -827492453537361400,
   -851412546408721500, -874637912323827500, -897106934183426300, -918756408463834700, -939517697534719300, -959313773588688900,
   -978084325765924300, -995785130382788600, -1012361165314596000, -1027741036495644000, -1041861222641119000, -1054680247057000000,
   -1066160875985523000, -1076255384835563000, -1084912299471198000, -1092087422379003000, -1097736146613313000, -1101808861640070000,
   -1104271876052675000, -1105108362290460000, -1104281465492726000, -1101739218186236000, -1097437360338336000, -1091353125572511000,
   -1083467335729228000, -1073739938306107000, -1062130155324388000, -1048606145834788000, -1033132401525343000, -1015673163469357000,
   -996200550612615400, -974680322946926700, -951072362330666600, -925330338323150600, -897412521612821200, -867287768911925200,
   -834921383908370800, -800263990206168700, -763267953651685600, -723880616216674400, -682057679614951900, -637761142917226000,
   -590938600155814900, -541531632240277400, -489481272459865000, -434734711219519700, -377246130025333200, -316958760924443600,
   -253817983069026600, -187768909655551600, -118746137885038800, -46690992474230820, 28440967488703850, 106697612479434200,
   188135595058294900, 272815601043769500, 360781046985127200, 452070275980391400, 546723880220432600, 644786605461534600,
   746286219942206100, 851249056872384600, 959698398749697000, 1071650779014335000, 1187115850305241000, 1306101067250375000,
   1428596447589721000, 1554584725339102000, 1684041609371527000, 1816947894623263000, 1953273880886783000, 2092963206850239000]

/-- part 1 of the numerators of `W_N320_10MS` -/
def W_N320_10MS_num_1 : List Int :=
  [2235945635254679000, 2382160219461597000, 2531529721334063000, 2683961570569586000, 2839361392493072000, 2997624255177811000,
   3158619077906196000, 3322210551086769000, 3488264676990591000, 3656640377499646000, 3827152968157059000, 3999611859760947000,
   4173843265025887000, 4349669624916473000, 4526876397402144000, 4705242008503956000, 4884539254831315000, 5064545550235134000,
   5245006748662190000, 5425674372882107000, 5606312044701524000, 5786672646386708000, 5966477035050948000, 6145458904162185000,
   6323361944662236000, 6499926319211774000, 6674874032292857000, 6847932667399612000, 7018835463513400000, 7187322544823347000,
   7353128213893310000, 7516001985652684000, 7675699252273948000, 7831974571624924000, 7984583859818390000, 8133295347030278000,
   8277892271515950000, 8418178561101360000, 8553961300139363000, 8685068980898102000, 8811334436653052000, 8932596784799233000,
   9048748835980528000, 9159657608120536000, 9265215299450000000, 9365339988633418000, 9459977028429117000, 9549088408436811000,
   9632658122557368000, 9710688896122810000, 9783204156360773000, 9850226760127131000, 9911792082081333000, 9967989944502682000,
   10018940246156590000, 10064743422318230000, 10105520571091950000, 10141425382080070000, 10172625932689300000, 10199288426699230000,
   10221598670111770000, 10239763209271870000, 10254007346081220000, 10264553404000720000, 10271645106541600000, 10275527291807900000,
   10276444623804320000, 10274632466607970000, 10270359034106570000, 10263890680002590000, 10255482017997280000, 10245371347497090000,
   10233808037753760000, 10221036956933410000, 10207283596579580000, 10192753346873290000, 10177651787928300000, 10162173558675310000,
   10146653116868460000, 10132490710906640000, 10119480069921270000, 10101890901792230000, 10085579611678500000, 10070112876084510000,
   10055487645759100000, 10041684172689560000, 10028672688930350000, 10016417691158970000, 10004890689546410000, 9994060799749374000,
   9983898865406841000, 9974370849972721000, 9965444836911705000, 9957098545943852000, 9949302413030897000, 9942024045863540000,
   9935241604969254000, 9928930430130044000, 9923068103443909000, 9917633778190438000, 9912597642374404000, 9907954498484041000,
   9903677893656558000, 9899751611066148000, 9896160337369861000, 9892890160408989000, 9889928511129679000, 9887260333430423000,
   9884868721088945000, 9882751039537586000, 9880892168751595000, 9879277114724612000, 9877898261218510000, 9876743442038471000,
   9875807496078497000, 9875072021876561000, 9874529447589979000, 9874169741527905000, 9873984685207834000, 9873958301311858000]

/-- part 2 of the numerators of `W_N320_10MS` -/
def W_N320_10MS_num_2 : List Int :=
  [9874080027710336000, 9874343401290739000, 9874736235387018000, 9875243137719285000, 9875856201221135000, 9876563785063032000,
   9877358921155149000, 9878225576787804000, 9879150968481590000, 9880132731565830000, 9881156946084619000, 9882211314188272000,
   9883289032519310000, 9884378310018685000, 9885476787868710000, 9886568414746639000, 9887645868459630000, 9888708540445242000,
   9889744320992592000, 9890747269455915000, 9891710038703801000, 9892631024032380000, 9893507219573624000, 9894330645494204000,
   9895096919388534000, 9895810813422480000, 9896467469067676000, 9897067365020641000, 9897606930400666000, 9898094478563998000,
   9898530133261707000, 9898914705684924000, 9899254194103574000, 9899554202030650000, 9899824494486951000, 9900065116928948000,
   9900284805353695000, 9900497484789281000, 9900709561632662000, 9900928358611601000, 9901163920607219000, 9901427479709606000,
   9901734275350572000, 9902087332329851000, 9902498637985275000, 9902983686695558000, 9903548501470234000, 9904205084933333000,
   9904959297726740000, 9905825150202904000, 9906812569810133000, 9907922087340426000, 9909165464981378000, 9910550740962871000,
   9912084614290896000, 9913768610980639000, 9915605826937839000, 9917604214872976000, 9919767175562684000, 9922091101818779000,
   9924579135466506000, 9927231225056266000, 9930049538427406000, 9933027281437943000, 9936161084869942000, 9939453714404443000,
   9942895145656371000, 9946481676207727000, 9950203031067961000, 9954058173659507000, 9958038713694317000, 9962130271017117000,
   9966324689957675000, 9970615306490058000, 9974990583293081000, 9979437430375855000, 9983940572002874000, 9988493116887893000,
   9993083430214909000, 9997689221333534000, 10002311312759690000, 10006921356989960000, 10011520139201630000, 10016085260004610000,
   10020604938672750000, 10025072120618150000, 10029471294004110000, 10033789095870270000, 10038013685780700000, 10042138103206990000,
   10046153865628460000, 10050046183757810000, 10053806286015980000, 10057432823646520000, 10060915103923480000, 10064249074249880000,
   10067424277276690000, 10070443215113780000, 10073302185971120000, 10075994017987090000, 10078520643866030000, 10080881761655630000,
   10083080332045780000, 10085112472737560000, 10086981442076270000, 10088695152563920000, 10090256597615120000, 10091667189673670000,
   10092933626090200000, 10094063988324400000, 10095070171711200000, 10095952642930170000, 10096721457446790000, 10097390847851600000,
   10097966750601420000, 10098461373820050000, 10098880836316670000, 10099240922768500000, 10099553847657210000, 10099822687701470000]

/-- part 3 of the numerators of `W_N320_10MS` -/
def W_N320_10MS_num_3 : List Int :=
  [10100062981773050000, 10100286184287350000, 10100502540769880000, 10100719521313550000, 10100943662380730000, 10101189173170530000,
   10101464970966820000, 10101771107116770000, 10102117552601020000, 10102510034694270000, 10102954686537590000, 10103452349966370000,
   10104003166981720000, 10104615643163510000, 10105286154456590000, 10106015212853470000, 10106797880818670000, 10107639058690620000,
   10108534297606760000, 10109475470745190000, 10110459531082630000, 10111484862933590000, 10112543977911340000, 10113630820758630000,
   10114733020088310000, 10115849963121490000, 10116974165045990000, 10118089197934690000, 10119192640257160000, 10120272407941530000,
   10121321516310410000, 10122327345643330000, 10123275604779010000, 10124163837543840000, 10124978907262920000, 10125704340210540000,
   10126332952557080000, 10126852770167260000, 10127255649922840000, 10127525776514150000, 10127650628898640000, 10127623567191620000,
   10127433760777770000, 10127064842001810000, 10126508422264350000, 10125754277785200000, 10124794734909190000, 10123611051210030000,
   10122198095947180000, 10120543599924190000, 10118640002154600000, 10116472238690870000, 10114025182677130000, 10111296546528570000,
   10108269512603770000, 10104929244363610000, 10101263539604160000, 10097258924793120000, 10092900609838330000, 10088173010525480000,
   10083050275551300000, 10077528336754430000, 10071578273581500000, 10065180493445030000, 10058314035320180000, 10050955921193730000,
   10043086300550500000, 10034674983057760000, 10025695004138880000, 10016127101055630000, 10005942729756830000, 9995111701168786000,
   9983609218719522000, 9971409288327860000, 9958488863050556000, 9944818543153893000, 9930375282832211000, 9915146560759479000,
   9899136802423638000, 9881930623810997000, 9859422591203311000, 9835667898378924000, 9811423034808365000, 9785214441250228000,
   9756636036109838000, 9725453442532574000, 9691456634185092000, 9654406178310209000, 9614043615076308000, 9570113065179300000,
   9522367669696690000, 9470548839544214000, 9414403740008491000, 9353691612846549000, 9288190093977164000, 9217662887169115000,
   9141896283466009000, 9060694681113471000, 8973891675497357000, 8881332000806269000, 8782893885841422000, 8678469565343039000,
   8567970644671067000, 8451334654019180000, 8328542805780399000, 8199594783897041000, 8064511006873497000, 7923346478686025000,
   7776204488292163000, 7623206183595970000, 7464486491227057000, 7300205729992958000, 7130567383226717000, 6955805444755916000,
   6776173229836567000, 6591955305148172000, 6403486426892321000, 6211072197441818000, 6015049275244730000, 5815787608870452000]

/-- part 4 of the numerators of `W_N320_10MS` -/
def W_N320_10MS_num_4 : List Int :=
  [5613674511156324000, 5409188627354076000, 5202736834971303000, 4994780733459294000, 4785774177949064000, 4576172599874928000,
   4366490208265804000, 4157221460415995000, 3948856590950757000, 3741903189229770000, 3536868899553974000, 3334260017756462000,
   3134586473252229000, 2938337904395871000, 2745992637590817000, 2558030636168172000, 2374902188466697000, 2197036032185785000,
   2024855415115456000, 1858749915117319000, 1699067802117410000, 1546132267478873000, 1400238206749695000, 1261637395672913000,
   1130534434072719000, 1007084973747940000, 891402438987308100, 783561210014179200, 683582123392098800, 591421153602897600,
   506989301234083200, 430171776358555000, 360802072667335900, 298631633701763000, 243372265712981200, 194767524197170000,
   152571017125589500, 116378749263624000, 84330877826437180, 44496689973447350, 0, 0,
   0, 0, 0, 0, 0, 0,
   0, 0, 0, 0, 0, 0,
   0, 0, 0, 0, 0, 0,
   0, 0, 0, 0, 0, 0,
   0, 0, 0, 0, 0, 0,
   0, 0, 0, 0, 0, 0,
   0, 0, 0, 0, 0, 0,
   0, 0, 0, 0, 0, 0,
   0, 0, 0, 0, 0, 0,
   0, 0, 0, 0, 0, 0,
   0, 0, 0, 0, 0, 0,
   0, 0, 0, 0, 0, 0,
   0, 0, 0, 0, 0, 0]

/-- part 5 of the numerators of `W_N320_10MS` -/
def W_N320_10MS_num_5 : List Int :=
  [0, 0, 0, 0, 0, 0,
   0, 0, 0, 0, 0, 0,
   0, 0, 0, 0, 0, 0,
   0, 0, 0, 0, 0, 0,
   0, 0, 0, 0, 0, 0,
   0, 0, 0, 0, 0, 0,
   0, 0, 0, 0]

/-- numerators of `W_N320_10MS` -/
def W_N320_10MS_num : List Int :=
  List.flatten [W_N320_10MS_num_0, W_N320_10MS_num_1, W_N320_10MS_num_2, W_N320_10MS_num_3, W_N320_10MS_num_4, W_N320_10MS_num_5]

/-- `W_N320_10MS`, tables/mdct_windows.rs lines 219-353 -/
def W_N320_10MS : List Rat := W_N320_10MS_num.map fun n => mkRat n W_N320_10MS_den

/-- common denominator of the entries of `W_N480_10MS` -/
def W_N480_10MS_den : Nat := 10000000000000000000

/-- part 0 of the numerators of `W_N480_10MS` -/
def W_N480_10MS_num_0 : List Int :=
  [-2353032150516754, -4619898752628163, -6262931535610879, -7929180432976445, -9747166718929050, -11802568944745620,
   -14092090395948710, -16644730969737250, -19465916081702310, -22570817325884780, -25971069167377890, -29676076248395240,
   -33704548779884720, -38062851633522410, -42768737676390640, -47824699045018130, -53246087217167630, -59034038140954000,
   -65204197265998050, -71758852777710990, -78714228206423070, -86065860397596670, -93824808608991080, -101982718216330700,
   -110552054773906600, -119527030074319300, -128920591030384600, -138726348432316000, -148952815950629600, -159585662193380000,
   -170628855673543300, -182066639996546800, -193906597523271800, -206135541758271400, -218757092578686200, -231752631526641100,
   -245122744904148900, -258847193715761900, -272926373709079900, -287339090271361500, -302086273824526400, -317144037299438400,
   -332509885898630300, -348159779353834200, -364089240693301900, -380274231820915000, -396706799267297900, -413357541735382600,
   -430220337173427800, -447269804591441700, -464502229293432900, -481889149026668700, -499422586325650000, -517069080282666600,
   -534816203609722300, -552633479459356500, -570512315242382200, -588427174974555900, -606371723524399600, -624310402782908900,
   -642230354500430400, -660096151944065700, -677896226963449500, -695599686858137900, -713196626644339000, -730658127327273300,
   -747975891300145800, -765117822589049000, -782071142076885600, -798801069341164400, -815296400531953200, -831523735326400400,
   -847472894677071400, -863113754490567700, -878437445295905800, -893416436432141700, -908041129124572800, -922279576142843200,
   -936123286722334000, -949537775887033500, -962515531313985600, -975028462043756900, -987073651421442600, -998627128827102600,
   -1009680221406219000, -1020202684361974000, -1030183804850491000, -1039596356759290000, -1048438825017798000, -1056686838192766000,
   -1064342821660323000, -1071382314127799000, -1077799961121537000, -1083570625865931000, -1088690135027248000, -1093135588677235000,
   -1096903559498340000, -1099969655786929000, -1102332261219973000, -1103972812085189000, -1104898474883336000, -1105086416532167000,
   -1104537426996073000, -1103225838568563000, -1101145827722143000, -1098276928170364000, -1094621746650760000, -1090163960055733000,
   -1084908852561722000, -1078834293141886000, -1071937180231978000, -1064196358069465000, -1055612509762041000, -1046162812518618000,
   -1035849043557610000, -1024650162703341000, -1012568997532046000, -999586457193292800, -985701456619462700, -970891113585796700]

/-- part 1 of the numerators of `W_N480_10MS` -/
def W_N480_10MS_num_1 : List Int :=
  [-955154582068908400, -938468492071542500, -920830006289155000, -902217102140645000, -882630999300078500, -862049382180393700,
   -840474215281533000, -817879271680951200, -794262502670361700, -769598077581999000, -743878560021146300, -717079700287360800,
   -689199478381596900, -660218979771524100, -630134942072442400, -598919191266771200, -566565564113316100, -533040616448222200,
   -498342724197623500, -462445689342022400, -425345568633691600, -387019577253844300, -347458577614592900, -306634151868268200,
   -264542507764210500, -221158160812052800, -176474054159913600, -130458136389581800, -83104256962089360, -34382686611331700,
   15703154765769330, 67176976352906760, 120047702024477800, 174339831974786900, 230064206107782300, 287248142327059500,
   345889635063467100, 406010646262508500, 467610291575282600, 530713391182189300, 595323909091555700, 661464781286915100,
   729129318431280300, 798335418981651100, 869080741277069600, 941381376527506400, 1015233140203748000, 1090651518336202000,
   1167626546016197000, 1246171387327525000, 1326272948938113000, 1407938190608664000, 1491152519299797000, 1575921408388593000,
   1662224799248571000, 1750067399059861000, 1839431938620024000, 1930318183054904000, 2022699854906251000, 2116567430906184000,
   2211888523410642000, 2308655379767671000, 2406837992341654000, 2506420640291662000, 2607365124918583000, 2709659073501196000,
   2813259021832532000, 2918144694729168000, 3024270279840051000, 3131603499997996000, 3240095704645023000, 3349719592361666000,
   3460422935204829000, 3572175180786021000, 3684915649120530000, 3798595119591716000, 3913146885756875000, 4028532873867052000,
   4144688328137527000, 4261571642320424000, 4379113897565727000, 4497256320417501000, 4615925445090212000, 4735067030065239000,
   4854600184866710000, 4974471592901086000, 5094597228333853000, 5214909841729947000, 5335326819631583000, 5455789811615239000,
   5576217157959890000, 5696546730080154000, 5816685576268035000, 5936560624526468000, 6056083823929643000, 6175192060085208000,
   6293796611336280000, 6411830842823245000, 6529203544876097000, 6645840786371451000, 6761653499550255000, 6876573952173626000,
   6990511539119996000, 7103400549562944000, 7215149331458728000, 7325691772738999000, 7434943718765665000, 7542846327442048000,
   7649313654540612000, 7754281892901473000, 7857670170752049000, 7959414651061612000, 8059437233154637000, 8157687070715176000,
   8254086223972127000, 8348589373399948000, 8441125827416620000, 8531651194538425000, 8620108336276733000, 8706456337542150000]

/-- part 2 of the numerators of `W_N480_10MS` -/
def W_N480_10MS_num_2 : List Int :=
  [8790631561061171000, 8872599706865123000, 8952313288619367000, 9029751680353524000, 9104863121445679000, 9177625550620636000,
   9247997426966093000, 9315962496426278000, 9381494858921667000, 9444588390359354000, 9505220861927248000, 9563402921286364000,
   9619114522936701000, 9672366712325431000, 9723156637834687000, 9771501187120180000, 9817397501303696000, 9860865871353246000,
   9901906380163595000, 9940557180662704000, 9976842395284637000, 10010809612570100000, 10042475141024170000, 10071885784585070000,
   10099066545651080000, 10124074282828840000, 10146947024326000000, 10167746592094000000, 10186509905618480000, 10203304644631110000,
   10218173289117930000, 10231188413844600000, 10242402624670000000, 10251897218881280000, 10259724509694400000, 10265969385894430000,
   10270691793758410000, 10273975239392100000, 10275879022031090000, 10276489519227010000, 10275858306881430000, 10274085196610120000,
   10271229868269840000, 10267386736474820000, 10262616638780920000, 10257010024150630000, 10250617776482340000, 10243539809767010000,
   10235823856187740000, 10227565146151060000, 10218806043504220000, 10209638713176650000, 10200091395492750000, 10190272855012510000,
   10180194427842310000, 10169964995608450000, 10159574332063240000, 10149234412597950000, 10139159461006290000, 10130475651493270000,
   10122161303656100000, 10110448696391640000, 10099145921300440000, 10088248880925730000, 10077738584554000000, 10067617004129930000,
   10057866488108540000, 10048487539627340000, 10039460834137330000, 10030788465065460000, 10022450091356840000, 10014447339058170000,
   10006761884366510000, 9999393169239009000, 9992320848298057000, 9985548127155425000, 9979055415627330000, 9972842679758880000,
   9966890948441745000, 9961203379971326000, 9955761256313581000, 9950565724564597000, 9945597525471822000, 9940860378486615000,
   9936337788972491000, 9932031606606759000, 9927921871265732000, 9924015177880798000, 9920297273323891000, 9916767775088281000,
   9913408767719142000, 9910230654424902000, 9907216425865902000, 9904366799536263000, 9901668953434221000, 9899131011580791000,
   9896735637374597000, 9894488374513719000, 9892374835404283000, 9890401927796704000, 9888556356037892000, 9886843467692753000,
   9885247606051014000, 9883778520531268000, 9882423270582524000, 9881185638915363000, 9880051626345804000, 9879032023766432000,
   9878111744348976000, 9877295459610343000, 9876571983429736000, 9875949843246187000, 9875412739766566000, 9874969061399389000,
   9874606249127551000, 9874329809802893000, 9874126414437681000, 9874004750404033000, 9873949921033299000, 9873969162747074000]

/-- part 3 of the numerators of `W_N480_10MS` -/
def W_N480_10MS_num_3 : List Int :=
  [9874049060317581000, 9874197049003676000, 9874399717110517000, 9874663281231737000, 9874973205882319000, 9875338926695315000,
   9875746535410983000, 9876201238703241000, 9876689801932402000, 9877221556193183000, 9877781920433015000, 9878376489591358000,
   9878991990245439000, 9879637979933339000, 9880300303653743000, 9880984675859855000, 9881678007807095000, 9882390300097154000,
   9883107693992456000, 9883835200189653000, 9884560159878955000, 9885294200392185000, 9886022219397892000, 9886749404176028000,
   9887466261142505000, 9888182771263505000, 9888882480852147000, 9889574384705896000, 9890247977602895000, 9890911247701029000,
   9891551701556196000, 9892178658748239000, 9892779555818088000, 9893365186903538000, 9893923680007577000, 9894462830852175000,
   9894972124952000000, 9895463342815009000, 9895923617530382000, 9896362652966239000, 9896772011542693000, 9897162195263046000,
   9897520286480039000, 9897859195209235000, 9898170267411330000, 9898462068764986000, 9898725363809847000, 9898975138787787000,
   9899200050208486000, 9899410789223559000, 9899600605054418000, 9899782261038060000, 9899945557067980000, 9900103500807507000,
   9900248320990181000, 9900394023736973000, 9900532105829365000, 9900674746047259000, 9900814722948890000, 9900966926051257000,
   9901122448734595000, 9901293790312005000, 9901474648912307000, 9901680598867444000, 9901902265696609000, 9902151896501201000,
   9902424418296485000, 9902734448815004000, 9903071270768942000, 9903448913950654000, 9903862280081246000, 9904324484666853000,
   9904825650601110000, 9905379830873822000, 9905980602136440000, 9906640366554630000, 9907348826312993000, 9908120376822228000,
   9908947858311721000, 9909842592301273000, 9910795247770178000, 9911819240108124000, 9912905118607647000, 9914064705361564000,
   9915288011543961000, 9916586940166509000, 9917952720685562000, 9919396217291009000, 9920906151219310000, 9922495028313456000,
   9924152398352751000, 9925887208794144000, 9927688708468421000, 9929569112537944000, 9931516528513824000, 9933539244159140000,
   9935626893131695000, 9937790866568735000, 9940016434044485000, 9942312024833810000, 9944668184371617000, 9947093441694513000,
   9949572854565533000, 9952116634297566000, 9954712635321227000, 9957367951478069000, 9960068616185641000, 9962823025614079000,
   9965617986382630000, 9968461329825753000, 9971338271912752000, 9974256691222113000, 9977203369515556000, 9980185087055744000,
   9983185871761977000, 9986213520769593000, 9989255426466267000, 9992317314100975000, 9995382582242990000, 9998461160718275000]

/-- part 4 of the numerators of `W_N480_10MS` -/
def W_N480_10MS_num_4 : List Int :=
  [10001539076120800000, 10004619550796600000, 10007688592803380000, 10010756130537280000, 10013805512171090000, 10016842447344970000,
   10019854253975670000, 10022848717862260000, 10025809751618430000, 10028744113684300000, 10031638453649700000, 10034500633743290000,
   10037315702878930000, 10040091474620430000, 10042814575829350000, 10045493392263360000, 10048113750533640000, 10050682723943600000,
   10053187957482860000, 10055639680080370000, 10058022696352820000, 10060345540023530000, 10062598553608670000, 10064790181395400000,
   10066905414281160000, 10068955704085630000, 10070930456965270000, 10072837992462330000, 10074666162980570000, 10076427284268470000,
   10078110365855950000, 10079724419901870000, 10081258759044720000, 10082726023832840000, 10084114686168520000, 10085435731526320000,
   10086680183347970000, 10087860097872690000, 10088965262335550000, 10090007663360710000, 10090977638503330000, 10091888808973700000,
   10092731637973130000, 10093517625462960000, 10094239449491430000, 10094911752445070000, 10095524019009610000, 10096088868957640000,
   10096599738307510000, 10097070937781620000, 10097492385620670000, 10097877442846610000, 10098220902204070000, 10098537062825970000,
   10098814989430100000, 10099069584480990000, 10099295670215620000, 10099505734833660000, 10099690214004740000, 10099864991850540000,
   10100023638790440000, 10100178904288770000, 10100321701803600000, 10100467220455830000, 10100608092995300000, 10100756744452890000,
   10100904499820980000, 10101065649659650000, 10101232265841200000, 10101417621731450000, 10101611310933720000, 10101826358978760000,
   10102055879316600000, 10102310784942490000, 10102579502279880000, 10102877329685800000, 10103194845245120000, 10103540796637670000,
   10103906354880370000, 10104304704945120000, 10104722664950740000, 10105170963815090000, 10105640992810000000, 10106142668945120000,
   10106662858764550000, 10107213602432340000, 10107784167552640000, 10108382526444610000, 10108996556745780000, 10109637296266410000,
   10110291913016940000, 10110969939930370000, 10111658612391730000, 10112366103412600000, 10113081676707530000, 10113814536389120000,
   10114547857131020000, 10115291851538090000, 10116036809105050000, 10116788039380460000, 10117530085698030000, 10118274847979850000,
   10119009365478810000, 10119738765116030000, 10120448850033040000, 10121149856449190000, 10121828370949550000, 10122490239767420000,
   10123120950630700000, 10123730287377740000, 10124304636793160000, 10124849722468220000, 10125350586024530000, 10125816781691880000,
   10126234728985040000, 10126609755298580000, 10126927587502130000, 10127197892011440000, 10127405752966030000, 10127557538870850000]

/-- part 5 of the numerators of `W_N480_10MS` -/
def W_N480_10MS_num_5 : List Int :=
  [10127639488412040000, 10127659224499600000, 10127602986610690000, 10127478199365840000, 10127269589549610000, 10126986076921830000,
   10126614005394050000, 10126159041162650000, 10125608330057130000, 10124970502698050000, 10124228885216010000, 10123392262413670000,
   10122449219662970000, 10121404602111940000, 10120243020854410000, 10118975605677070000, 10117588105831500000, 10116084491276420000,
   10114451627232700000, 10112699609477440000, 10110812556459690000, 10108796084243120000, 10106636767352280000, 10104341842006400000,
   10101896811246570000, 10099307548079230000, 10096556602152710000, 10093652515646940000, 10090582498738330000, 10087347585789890000,
   10083930799630910000, 10080343082954210000, 10076566612159730000, 10072601426228870000, 10068433525068550000, 10064070095421030000,
   10059491451707110000, 10054700056370520000, 10049679864244670000, 10044435319959450000, 10038947724033710000, 10033219036637930000,
   10027231273081480000, 10020988544005750000, 10014472788734830000, 10007685053170860000, 10000606867587580000, 9993242684851855000,
   9985573503390627000, 9977600196406868000, 9969306036935497000, 9960694269553644000, 9951746430061121000, 9942466438407230000,
   9932837131068657000, 9922861082472264000, 9912523092989319000, 9901827419790691000, 9890757868707590000, 9879313024174022000,
   9863553220272523000, 9847362453480265000, 9831750948772566000, 9815583336011345000, 9798613526271561000, 9780617486993630000,
   9761574317374303000, 9741378617337759000, 9719990112065752000, 9697327413658168000, 9673331975559332000, 9647915124057732000,
   9621011497566145000, 9592539757044516000, 9562427177295731000, 9530600909726344000, 9496984081652284000, 9461498120176854000,
   9424071613625743000, 9384634163826711000, 9343112966094085000, 9299449872197452000, 9253567968750328000, 9205404627076625000,
   9154896280575360000, 9101986790930605000, 9046620597741508000, 8988755194372424000, 8928338316495705000, 8865337190368053000,
   8799712722567934000, 8731437835983047000, 8660476534563131000, 8586812520174252000, 8510420440685049000, 8431297226886574000,
   8349435141989714000, 8264839911291133000, 8177505366573690000, 8087449817124315000, 7994681492797084000, 7899235162194718000,
   7801137731566502000, 7700431275216928000, 7597145736971065000, 7491330971820804000, 7383028603058783000, 7272298755824693000,
   7159201919962611000, 7043814340356083000, 6926196927377140000, 6806438831866077000, 6684616478236647000, 6560830137986515000,
   6435179268559957000, 6307755329382612000, 6178641647786525000, 6047954625702541000, 5915799587176216000, 5782289366005894000]

/-- part 6 of the numerators of `W_N480_10MS` -/
def W_N480_10MS_num_6 : List Int :=
  [5647535885752191000, 5511703155400274000, 5374905090437071000, 5237263500445715000, 5098915423728255000, 4960008074926423000,
   4820662943337458000, 4681017110048007000, 4541216995958746000, 4401421815729068000, 4261772971493010000, 4122417888542512000,
   3983499612526493000, 3845172335531009000, 3707583717376236000, 3570886786795506000, 3435228672445627000, 3300763764703638000,
   3167640325043893000, 3036004651973109000, 2905996158436682000, 2777758503744847000, 2651434678028531000, 2527161881181577000,
   2405069849650012000, 2285283969438072000, 2167933432162879000, 2053139897833021000, 1941021906320988000, 1831680872008943000,
   1725221947208913000, 1621735416384834000, 1521320683467849000, 1424052801149985000, 1330015240938615000, 1239260664828526000,
   1151858295527293000, 1067840430193724000, 987263750500287800, 910137900088803500, 836505723662305500, 766350830553615300,
   699703340574882600, 636518811138136500, 576817601581439200, 520524421698796600, 467653841225762100, 418095054143836200,
   371864025136846400, 328807275073221500, 288954849958295800, 252098056592888400, 218305756464627200, 187289619400263800,
   159212781515342000, 133638142580302000, 110855887780728200, 89434741893646380, 67581248896977870, 35044381306194970,
   0, 0, 0, 0, 0, 0,
   0, 0, 0, 0, 0, 0,
   0, 0, 0, 0, 0, 0,
   0, 0, 0, 0, 0, 0,
   0, 0, 0, 0, 0, 0,
   0, 0, 0, 0, 0, 0,
   0, 0, 0, 0, 0, 0,
   0, 0, 0, 0, 0, 0,
   0, 0, 0, 0, 0, 0,
   0, 0, 0, 0, 0, 0]

/-- part 7 of the numerators of `W_N480_10MS` -/
def W_N480_10MS_num_7 : List Int :=
  [0, 0, 0, 0, 0, 0,
   0, 0, 0, 0, 0, 0,
   0, 0, 0, 0, 0, 0,
   0, 0, 0, 0, 0, 0,
   0, 0, 0, 0, 0, 0,
   0, 0, 0, 0, 0, 0,
   0, 0, 0, 0, 0, 0,
   0, 0, 0, 0, 0, 0,
   0, 0, 0, 0, 0, 0,
   0, 0, 0, 0, 0, 0,
   0, 0, 0, 0, 0, 0,
   0, 0, 0, 0, 0, 0,
   0, 0, 0, 0, 0, 0,
   0, 0, 0, 0, 0, 0,
   0, 0, 0, 0, 0, 0,
   0, 0, 0, 0, 0, 0,
   0, 0, 0, 0, 0, 0,
   0, 0, 0, 0, 0, 0,
   0, 0, 0, 0, 0, 0,
   0, 0, 0, 0, 0, 0]

/-- numerators of `W_N480_10MS` -/
def W_N480_10MS_num : List Int :=
  List.flatten [W_N480_10MS_num_0, W_N480_10MS_num_1, W_N480_10MS_num_2, W_N480_10MS_num_3, W_N480_10MS_num_4, W_N480_10MS_num_5, W_N480_10MS_num_6, W_N480_10MS_num_7]

/-- `W_N480_10MS`, tables/mdct_windows.rs lines 356-557 -/
def W_N480_10MS : List Rat := W_N480_10MS_num.map fun n => mkRat n W_N480_10MS_den

/-- common denominator of the entries of `W_N60_7P5MS` -/
def W_N60_7P5MS_den : Nat := 1000000000000000000

/-- part 0 of the numerators of `W_N60_7P5MS` -/
def W_N60_7P5MS_num_0 : List Int :=
  [2950608593187313, 7175411316438510, 13769537353717540, 23095355648772660, 35403622983259990, 50828930357101520,
   69469629259514730, 91388427781334260, 116604574829623100, 145073545983919500, 176711174053460800, 211342952955480000,
   248768614459914800, 288701101746985900, 330823871149993800, 374814544406725100, 420308013047230800, 466904917964873600,
   514185341357833200, 561710040666941300, 609026346152434100, 655671016213409700, 701218384229818900, 745240678762236200,
   787369206048432600, 827223833436803600, 864513675018827700, 898977414612621400, 930407517984552300, 958599937397485200,
   983447719378422600, 1004882833289021000, 1022853807278541000, 1037404947967044000, 1048597914202596000, 1056561843427440000,
   1061493706243562000, 1063625783716980000, 1063259727973876000, 1060745048351166000, 1056435897894500000, 1050695001011264000,
   1043924345068839000, 1036477246028582000, 1028728673666003000, 1021064859918030000, 1014006582262175000, 1007274550102931000,
   1001722497437142000, 997309591666583100, 993985158260166900, 991683334808959100, 990325325024912600, 989822612537615200,
   990074733989366700, 990975314368959200, 992412851225652400, 994273149357862300, 996439157431590000, 998791615753408600,
   1001209846205687000, 1003573567479612000, 1005759836364722000, 1007645153692818000, 1009106872290545000, 1010024764464639000,
   1010282031682720000, 1009769188700535000, 1008386412173240000, 1006051238984656000, 1002697666156926000, 998280464458421300,
   992777986793979800, 986186892168957200, 977634164392255400, 967447269570116200, 955129725416116700, 940389877411592200,
   922959279964297700, 902607349937268400, 879202688562948000, 852641749726566400, 822881271616310600, 789971715171577400,
   754030327670635700, 715255741732846500, 673936911240907300, 630414716229244500, 585078857908467400, 538398518296619800,
   490833753173280900, 442885823257371600, 395091024053755300, 348004343198510200, 302196710240946500, 258227430580528400,
   216641416438901300, 177922121520114600, 142480547128767400, 110652194335371700, 82699596695282870, 58833451620131320,
   39203084845456460, 23862910744794150, 12697622342462480, 5356653610215987, 0, 0,
   0, 0, 0, 0, 0, 0,
   0, 0, 0, 0, 0, 0]

/-- numerators of `W_N60_7P5MS` -/
def W_N60_7P5MS_num : List Int :=
  List.flatten [W_N60_7P5MS_num_0]

/-- `W_N60_7P5MS`, tables/mdct_windows.rs lines 560-585 -/
def W_N60_7P5MS : List Rat := W_N60_7P5MS_num.map fun n => mkRat n W_N60_7P5MS_den

/-- common denominator of the entries of `W_N120_7P5MS` -/
def W_N120_7P5MS_den : Nat := 1000000000000000000

/-- part 0 of the numerators of `W_N120_7P5MS` -/
def W_N120_7P5MS_num_0 : List Int :=
  [2208248743046650, 3810144195090351, 5915524734289813, 8583614568030036, 11875972260834520, 15833530140970890,
   20491865155160060, 25888359289215420, 32041589448175440, 38961672123954680, 46674216913934900, 55184933727613500,
   64503838443837570, 74641107148067320, 85600016188789930, 97384670250481700, 109993602538973300, 123419277472281200,
   137655456547628300, 152690437463956400, 168513362640496500, 185093104613143000, 202410419487986400, 220450365133188000,
   239167940620307700, 258526168288332700, 278498538773636200, 299038431599591100, 320104862365552100, 341658622243036300,
   363660034025212100, 386062695189503500, 408815272459443200, 431871045845866000, 455176987704813900, 478676592635263200,
   502324813138103500, 526060916224847300, 549831282885023300, 573576882777005900, 597241338441034200, 620770242419397300,
   644099662433612400, 667176381676395000, 689958853765865400, 712379980093130200, 734396371869478800, 755966688050532400,
   777036981101516800, 797558113689794200, 817490855531113800, 836796949640853200, 855447309567916300, 873400798399115600,
   890635718969808300, 907128770123878200, 922848783570287700, 937763322534182000, 951860206252746800, 965130600153628900,
   977556540546724800, 989126208677995700, 999846919168316300, 1009700729703874000, 1018682286908352000, 1026814550859190000,
   1034089812751720000, 1040511956629397000, 1046108368522362000, 1050885649534276000, 1054862887578656000, 1058072205849552000,
   1060534138670111000, 1062276617517642000, 1063338150260194000, 1063755566766962000, 1063566320618061000, 1062821557530121000,
   1061559958917576000, 1059817091581481000, 1057658760384513000, 1055120057365395000, 1052239850719546000, 1049087785713381000,
   1045698595146235000, 1042108306824389000, 1038380985588667000, 1034552762539362000, 1030671997181282000, 1026791666942681000,
   1022955584022344000, 1019207332137853000, 1015872887197225000, 1012210174593533000, 1008845591036958000, 1005778512486221000,
   1003002618498964000, 1000514601809148000, 998309228756052700, 996378601374571900, 994718132279736700, 993316215711849600,
   992166956964938700, 991258602708850700, 990581103872325600, 990123118186375400, 989873711994700000, 989818706664725300,
   989946800178719100, 990243175367708200, 990695563551443400, 991288540103593400, 992009469063566800, 992842692750140800,
   993775066630663500, 994790397982871900, 995875533622125800, 997014367015672600, 998192870684211900, 999394506476233300]

/-- part 1 of the numerators of `W_N120_7P5MS` -/
def W_N120_7P5MS_num_1 : List Int :=
  [1000605860368296000, 1001810400944408000, 1002994573682287000, 1004141548053574000, 1005236884099094000, 1006263925890636000,
   1007208903587772000, 1008054893814649000, 1008788016348394000, 1009391822060050000, 1009852958217732000, 1010155293011166000,
   1010286018304889000, 1010229878703309000, 1009975407736885000, 1009508455280294000, 1008818483155921000, 1007894884001199000,
   1006728757854175000, 1005309913983530000, 1003634560818982000, 1001693634792953000, 999485662869670200, 997006370229165200,
   994254686877395200, 991231967393676700, 987937115334336800, 984375124686103400, 979890963312768400, 975269878842858700,
   970180498004025300, 964580026820327800, 958425533515527500, 951684013845583100, 944320232231505000, 936290624169876600,
   927580506944231600, 918153413723035100, 907976524013805700, 897050058479312300, 885351360384817700, 872857926504399800,
   859579818650462200, 845502615038655000, 830619943301480100, 814946648157534000, 798489377529440700, 781262449660145100,
   763291769255088100, 744590843420388300, 725199287080916500, 705153668360854500, 684490544603818500, 663245209931378300,
   641477161661818500, 619235333635541300, 596559132542786000, 573519989364814300, 550173851023454200, 526568538230012700,
   502781158663801800, 478860889056197900, 454877894349080700, 430898122898975700, 406993964205627400, 383234030582780700,
   359680098334455900, 336408100091304000, 313496418152646700, 291010565493870900, 269019585108746300, 247584347561867200,
   226788433385199200, 206677770653848900, 187310343238419300, 168739644125069100, 151012382058897900, 134171842279708800,
   118254662325635300, 103290733977459600, 89311736027255160, 76342978660417750, 64407729145859030, 53524371473939330,
   43708445281992300, 34966709915340890, 27298462926482970, 20689580803487810, 15112512523527590, 10522875381189000,
   6855473143120779, 4023511190940974, 0, 0, 0, 0,
   0, 0, 0, 0, 0, 0,
   0, 0, 0, 0, 0, 0,
   0, 0, 0, 0, 0, 0,
   0, 0, 0, 0, 0, 0]

/-- numerators of `W_N120_7P5MS` -/
def W_N120_7P5MS_num : List Int :=
  List.flatten [W_N120_7P5MS_num_0, W_N120_7P5MS_num_1]

/-- `W_N120_7P5MS`, tables/mdct_windows.rs lines 588-637 -/
def W_N120_7P5MS : List Rat := W_N120_7P5MS_num.map fun n => mkRat n W_N120_7P5MS_den

/-- common denominator of the entries of `W_N180_7P5MS` -/
def W_N180_7P5MS_den : Nat := 1000000000000000000

/-- part 0 of the numerators of `W_N180_7P5MS` -/
def W_N180_7P5MS_num_0 : List Int :=
  [1970849076512990, 2950608593187313, 4124477213467950, 5526886639437362, 7175411316438510, 9087577304291669,
   11281910517036560, 13769537353717540, 16560026616052940, 19665089454923170, 23095355648772660, 26861289389829760,
   30963255974317200, 35403622983259990, 40191561011009010, 45333140333373200, 50828930357101520, 56681544785348390,
   62893530446401540, 69469629259514730, 76410631368093260, 83716001565199820, 91388427781334260, 99429400767923950,
   107834724972307400, 116604574829623100, 125736502786434800, 135226811339595100, 145073545983919500, 155273818664872100,
   165822194234143500, 176711174053460800, 187928775884881300, 199473179818880700, 211342952955480000, 223524554031808200,
   236003099651799700, 248768614459914800, 261813810748989300, 275129160854431400, 288701101746985900, 302514033630994900,
   316558805236645000, 330823871149993800, 345295566673095400, 359963991566212700, 374814544406725100, 389831816553238800,
   405001009601584600, 420308013047230800, 435739515285996000, 451277817354749900, 466904917964873600, 482609040567348000,
   498375466266412300, 514185341357833200, 530021478313683100, 545869351788699400, 561710040666941300, 577528151441720400,
   593304696426257800, 609026346152434100, 624674188938691400, 640227554714632200, 655671016213409700, 670995934643907200,
   686184558797249800, 701218384229818900, 716078448562218400, 730756084155059100, 745240678762236200, 759515121573879300,
   773561955408612200, 787369206048432600, 800923137730797800, 814211386313193200, 827223833436803600, 839952374193806500,
   852386102361013400, 864513675018827700, 876324078835538400, 887814288392476400, 898977414612621400, 909803318928109200,
   920284311925309400, 930407517984552300, 940169652216635400, 949567794930264700, 958599937397485200, 967260260011783200,
   975545165941725200, 983447719378422600, 990971957260661100, 998119268644038700, 1004882833289021000, 1011257731140136000,
   1017244362189382000, 1022853807278541000, 1028087338709125000, 1032937063258800000, 1037404947967044000, 1041501641198980000,
   1045232355730946000, 1048597914202596000, 1051603395002874000, 1054255050268478000, 1056561843427440000, 1058534002822506000,
   1060174135407872000, 1061493706243562000, 1062499430330238000, 1063205771472337000, 1063625783716980000, 1063764865344437000,
   1063637778334477000, 1063259727973876000, 1062646953245063000, 1061804962699513000, 1060745048351166000, 1059484915739590000]

/-- part 1 of the numerators of `W_N180_7P5MS` -/
def W_N180_7P5MS_num_1 : List Int :=
  [1058045332777575000, 1056435897894500000, 1054662178717384000, 1052740474459255000, 1050695001011264000, 1048538935354313000,
   1046278982648917000, 1043924345068839000, 1041495397384132000, 1039010026880522000, 1036477246028582000, 1033907928361672000,
   1031319893754215000, 1028728673666003000, 1026148319362665000, 1023589880840269000, 1021064859918030000, 1018562619376553000,
   1016557703375972000, 1014006582262175000, 1011629525863078000, 1009385901800645000, 1007274550102931000, 1005296164582239000,
   1003445259887302000, 1001722497437142000, 1000127924463537000, 998657533466906200, 997309591666583100, 996083571092921800,
   994976568981428500, 993985158260166900, 993107530052221900, 992341305231053600, 991683334808959100, 991130069631425900,
   990678325164172300, 990325325024912600, 990067562181600600, 989901281872289700, 989822612537615200, 989827845401607300,
   989913241125936800, 990074733989366700, 990308255838731400, 990609851788113800, 990975314368959200, 991400330446182500,
   991880966170107200, 992412851225652400, 992991779075811500, 993613381385811600, 994273149357862300, 994966957785807500,
   995690370111365500, 996439157431590000, 997208572194835500, 997994274967679200, 998791615753408600, 999596061975985600,
   1000404101255877000, 1001209846205687000, 1002009756050340000, 1002799241686241000, 1003573567479612000, 1004328283187225000,
   1005058501867633000, 1005759836364722000, 1006427669689071000, 1007057682723931000, 1007645153692818000, 1008185492117307000,
   1008674265369618000, 1009106872290545000, 1009479158919060000, 1009786593319936000, 1010024764464639000, 1010189538289831000,
   1010276690684798000, 1010282031682720000, 1010201742651156000, 1010032080837507000, 1009769188700535000, 1009409386073207000,
   1008949310126241000, 1008386412173240000, 1007717803066923000, 1006940305796912000, 1006051238984656000, 1005048793283357000,
   1003931827630468000, 1002697666156926000, 1001344271172154000, 999872091899037900, 998280464458421300, 996566569174198200,
   994731737005641500, 992777986793979800, 990701374188106600, 988504165244528300, 986186892168957200, 983711988683983500,
   980584643109501000, 977634164392255400, 974455033150736300, 971062915561309200, 967447269570116200, 963593926287407400,
   959491398347322300, 955129725416116700, 950501325912075500, 945592810314401600, 940389877411592200, 934886760414131500,
   929080558710635000, 922959279964297600, 916509579192866700, 909724456073370200, 902607349937268400, 895155083757719300]

/-- part 2 of the numerators of `W_N180_7P5MS` -/
def W_N180_7P5MS_num_2 : List Int :=
  [887356154208250000, 879202688562948000, 870699697841629400, 861847424457935300, 852641749726566400, 843077833241503400,
   833154904680531500, 822881271616310600, 812257596919709100, 801285439243471000, 789971715171577400, 778318177172464400,
   766337710411638500, 754030327670635700, 741407990945756700, 728477500803539000, 715255741732846500, 701751739457159200,
   687975631811811300, 673936911240907300, 659652573201309500, 645139489066839200, 630414716229244500, 615483621927165400,
   600365851941398400, 585078857908467400, 569649536456404900, 554084809831234300, 538398518296619800, 522614737753751100,
   506756804966295400, 490833753173272600, 474866032652527000, 458876565810813000, 442885823257371600, 426906539230033000,
   410970973391487200, 395091024053754000, 379291327017082800, 363587416985863100, 348004343198509400, 332563200617545700,
   317287484882341200, 302196710240946500, 287309402575471100, 272643991600386000, 258227430580527700, 244072856174012900,
   230208977382346900, 216641416438901000, 203398480689705200, 190486161546394100, 177922121520114600, 165726674483588700,
   153906396679985500, 142480547128767100, 131453980101158300, 120841778238094900, 110652194335371600, 100891734193622200,
   91571885086475420, 82699596695282870, 74281552888626770, 66324238153317200, 58833451620131230, 51814067623779530,
   45269834556510760, 39203084845456430, 33614415942141100, 28502330815628590, 23862910744794150, 19689422655317830,
   15972052702408600, 12697622342462470, 9849377394464552, 7407244632998355, 5356653610215985, 3832265518746914,
   0, 0, 0, 0, 0, 0,
   0, 0, 0, 0, 0, 0,
   0, 0, 0, 0, 0, 0,
   0, 0, 0, 0, 0, 0,
   0, 0, 0, 0, 0, 0,
   0, 0, 0, 0, 0, 0,
   0, 0, 0, 0, 0, 0]

/-- numerators of `W_N180_7P5MS` -/
def W_N180_7P5MS_num : List Int :=
  List.flatten [W_N180_7P5MS_num_0, W_N180_7P5MS_num_1, W_N180_7P5MS_num_2]

/-- `W_N180_7P5MS`, tables/mdct_windows.rs lines 640-713 -/
def W_N180_7P5MS : List Rat := W_N180_7P5MS_num.map fun n => mkRat n W_N180_7P5MS_den

/-- common denominator of the entries of `W_N240_7P5MS` -/
def W_N240_7P5MS_den : Nat := 1000000000000000000

/-- part 0 of the numerators of `W_N240_7P5MS` -/
def W_N240_7P5MS_num_0 : List Int :=
  [1848330370601890, 2564818394430541, 3367621175255762, 4287366172947020, 5338301429131479, 6526792229804446,
   7861125872744963, 9346281793294168, 10991686770730230, 12801117243275870, 14780591052625880, 16930704307507470,
   19259230704090170, 21769693721010920, 24468598261446510, 27355654273858960, 30431923025763780, 33698046390066320,
   37158357725515740, 40814817952075460, 44670806842347390, 48726299526256190, 52982063254415510, 57438246966648480,
   62096857987522350, 66960976660852930, 72029836367898180, 77303914647713660, 82782557409536200, 88468210159317310,
   94360756645184490, 100460272003600200, 106763823750451500, 113273679440610300, 119986420273010100, 126903520680585600,
   134020853127777400, 141339556870127700, 148857211288972000, 156573685338125500, 164484622056357100, 172589076538143300,
   180879089820471300, 189354319600684600, 198012243528401800, 206854140994642000, 215875318757053800, 225068672370813000,
   234427407249969000, 243948313710515300, 253627992837805600, 263464060987933300, 273450494478137000, 283582188986509800,
   293853469478657200, 304257373461563200, 314790914011331000, 325449123426950400, 336227409661802600, 347118760290706500,
   358120176960449500, 369224663378337100, 380427792871279600, 391720022741617900, 403097022154836500, 414551955216868700,
   426081718612423900, 437676318481682300, 449330195657235000, 461034855039306700, 472786043282828900, 484576777178736800,
   496401706766519600, 508252457556494700, 520122078483965100, 532002077000541700, 543888089744155800, 555771601181135700,
   567645738774682900, 579502786315012100, 591335034592785600, 603138367473440000, 614904171685980800, 626623941105601400,
   638288834425202100, 649893374776771900, 661432360150173100, 672902513906347800, 684293749833449100, 695600459535882600,
   706811783648975600, 717923424519233000, 728931385727289000, 739832772797359600, 750618982371932800, 761284053417755200,
   771818918701624400, 782220991963992200, 792481330455120300, 802599447723046300, 812565229501908300, 822377128920088500,
   832030518374919900, 841523207674513300, 850848312948313800, 860002411781952200, 868979880825105400, 877778346729487000,
   886395903955834500, 894829420791080700, 903077625660289200, 911132652155618000, 918993585364937100, 926652936933656700,
   934111420416516800, 941364344292899300, 948412967370988900, 955255629597393600, 961892013137867800, 968316362908677200]

/-- part 1 of the numerators of `W_N240_7P5MS` -/
def W_N240_7P5MS_num_1 : List Int :=
  [974530156362119100, 980528338141725600, 986313927767293800, 991886048619892800, 997246344766401400, 1002391896644578000,
   1007319464375827000, 1012027073435850000, 1016516541512393000, 1020794302688699000, 1024860815794490000, 1028714705809749000,
   1032351702719174000, 1035773750472822000, 1038984315074006000, 1041987855398911000, 1044785643573356000, 1047378184121997000,
   1049767431495211000, 1051954045543143000, 1053942898562160000, 1055734631473796000, 1057341767323983000, 1058757264938716000,
   1059986744473714000, 1061036716870687000, 1061906510844496000, 1062603694906377000, 1063132893292572000, 1063502373941053000,
   1063709808061891000, 1063763223461893000, 1063667646046172000, 1063430118187021000, 1063056564385666000, 1062554210368898000,
   1061922346664364000, 1061167017783231000, 1060294689234573000, 1059314689493745000, 1058234647303768000, 1057058907527535000,
   1055789482473656000, 1054429786866560000, 1052987925902714000, 1051475051645344000, 1049899300533228000, 1048262129495776000,
   1046566906015578000, 1044816992642391000, 1043021249196200000, 1041187680907488000, 1039323391025476000, 1037431684165083000,
   1035517573311265000, 1033585105989712000, 1031643708543028000, 1029699545977279000, 1027759438517856000, 1025827187037112000,
   1023907910886626000, 1022008050685529000, 1020139101207016000, 1018263100813380000, 1016879010849981000, 1014921948187593000,
   1013096623369458000, 1011342052440818000, 1009659122960534000, 1008050363886717000, 1006517540250988000, 1005057992517306000,
   1003669560904293000, 1002353273092562000, 1001109808447114000, 999937523064020400, 998834523778353600, 997800605926859200,
   996835755847370600, 995938881156864000, 995108458955550100, 994343411090331500, 993642921198198300, 993005832427090400,
   992430983777038600, 991917492640328200, 991463898014729800, 991068213957296700, 990729218448800900, 990446224564421300,
   990217818551850300, 990041963066711800, 989917085260000400, 989841974698949100, 989815048293784700, 989834329137160000,
   989898210724722400, 990005403060574600, 990154189263867300, 990342426919530200, 990568458991084400, 990830952741347900,
   991128037927190100, 991457565684290400, 991817880927467500, 992207558971979300, 992624757299280100, 993067358412364700,
   993533398279547500, 994021410066003900, 994529685133771700, 995055963618117800, 995598350543473600, 996155580104218600,
   996725626776922300, 997306092208331900, 997895213854287600, 998491440631920900, 999092889987779200, 999697062575682800]

/-- part 2 of the numerators of `W_N240_7P5MS` -/
def W_N240_7P5MS_num_2 : List Int :=
  [1000303029223210000, 1000907933607887000, 1001510838557739000, 1002109225614564000, 1002701184533730000, 1003285129964668000,
   1003859256498246000, 1004421109631332000, 1004968601327613000, 1005500403806944000, 1006014548452834000, 1006508690831783000,
   1006981038626341000, 1007430041056790000, 1007853640055005000, 1008249618432853000, 1008616036239346000, 1008951378362138000,
   1009253896674588000, 1009521341935844000, 1009751751331617000, 1009943714668776000, 1010095497366507000, 1010204876790192000,
   1010270073045154000, 1010289752336835000, 1010262269696272000, 1010185615431975000, 1010058196828792000, 1009878817836722000,
   1009645930489341000, 1009357533197330000, 1009012281815637000, 1008609594360786000, 1008148366592626000, 1007626743165711000,
   1007043430506158000, 1006397749801444000, 1005688767931258000, 1004915585834316000, 1004077678781271000, 1003174288376062000,
   1002204242070086000, 1001166836141424000, 1000062480839591000, 998891421862267200, 997652251800104800, 996343855540476200,
   994967462022129600, 993524663018428200, 992013926907701600, 990433283134003000, 988785147009911600, 987072680860489400,
   985297442611976400, 983401161131379500, 980949417765550800, 978782729044635300, 976468238349044100, 974042850200710600,
   971498848279786900, 968829967901757800, 966030973927893800, 963095103865114400, 960018197689881200, 956795738404678600,
   953426266696235300, 949903482303963200, 946222115168413900, 942375819502639000, 938361701514345200, 934177797863119400,
   929823123908876200, 925292319504672100, 920580120066110700, 915679792968200100, 910590604293826700, 905315030158709100,
   899852756107195400, 894199497118493100, 888350152427933200, 882301631337498100, 876054874152524900, 869612384940705500,
   862972799329697300, 856135197574919800, 849098178607312000, 841857024342111600, 834414055019110500, 826774616875239300,
   818939244026861100, 810904891487293600, 802675318450619100, 794253750525829500, 785641661592051600, 776838608661742100,
   767853193256071300, 758685180670573800, 749330657713362000, 739809171155050300, 730109944357774700, 720247780620101400,
   710224160990163800, 700044325846150600, 689711889540492900, 679231154104662800, 668608178924739100, 657850996784249600,
   646965718233651600, 635959616622744400, 624840335899160700, 613603502679100200, 602265090642188400, 590829083373282300,
   579309407943056100, 567711124002090700, 556037415675142900, 544293664349262000, 532489768053648000, 520636084113625500]

/-- part 3 of the numerators of `W_N240_7P5MS` -/
def W_N240_7P5MS_num_3 : List Int :=
  [508743272768040000, 496811166041365300, 484849880708936400, 472868107365031000, 460875918379488500, 448881080632701800,
   436891038772751200, 424912022350782600, 412960603164168700, 401035896287704400, 389157866744937500, 377322198811673500,
   365543766863001200, 353832356425066700, 342196115433983700, 330644820108683400, 319187558989871200, 307833309339190100,
   296588181651645400, 285463716536022100, 274462408857763400, 263609584476889900, 252883101143322600, 242323488971182100,
   231925746284169700, 221690837369583300, 211638057695030700, 201766920294530400, 192082235818341700, 182589160013262600,
   173305996740758800, 164229200045030300, 155362654247924600, 146717078597741100, 138299391415145600, 130105078076730500,
   122145309929154700, 114423458192169100, 106941075992303300, 99702589344606230, 92712428337486930, 85973742706202670,
   79489331119521430, 73261657946053450, 67293410231088910, 61587408100763270, 56145800259322220, 50970074703565190,
   46061704714577750, 41422011692654100, 37051418875062280, 32949466622793920, 29115332694131200, 25547640132382350,
   22243771128286030, 19200065897979080, 16412220452669770, 13874761112013060, 11580635299098750, 9522136642215920,
   7691373795814687, 6072078331193099, 4625812168742676, 3606851641625968, 0, 0,
   0, 0, 0, 0, 0, 0,
   0, 0, 0, 0, 0, 0,
   0, 0, 0, 0, 0, 0,
   0, 0, 0, 0, 0, 0,
   0, 0, 0, 0, 0, 0,
   0, 0, 0, 0, 0, 0,
   0, 0, 0, 0, 0, 0,
   0, 0, 0, 0, 0, 0,
   0, 0, 0, 0, 0, 0]

/-- numerators of `W_N240_7P5MS` -/
def W_N240_7P5MS_num : List Int :=
  List.flatten [W_N240_7P5MS_num_0, W_N240_7P5MS_num_1, W_N240_7P5MS_num_2, W_N240_7P5MS_num_3]

/-- `W_N240_7P5MS`, tables/mdct_windows.rs lines 716-813 -/
def W_N240_7P5MS : List Rat := W_N240_7P5MS_num.map fun n => mkRat n W_N240_7P5MS_den

/-- common denominator of the entries of `W_N360_7P5MS` -/
def W_N360_7P5MS_den : Nat := 1000000000000000000

/-- part 0 of the numerators of `W_N360_7P5MS` -/
def W_N360_7P5MS_num_0 : List Int :=
  [1721526681611966, 2208248743046650, 2689017522595345, 3226133417706577, 3810144195090351, 4453719317184182,
   5153692399681317, 5915524734289813, 6738691584410875, 7628618406907552, 8583614568030036, 9609384374613759,
   10706075321601200, 11875972260834520, 13119012973159440, 14439010785886730, 15833530140970890, 17306308107586470,
   18858471121733130, 20491865155160060, 22206147641401740, 24005716624199460, 25888359289215420, 27855232591500680,
   29905914540163860, 32041589448175440, 34261001329859170, 36568097273211650, 38961672123954680, 41443582355670280,
   44014079551565170, 46674216913934900, 49421462498960870, 52258848899143270, 55184933727613500, 58200514284499140,
   61305984487691780, 64503838443837570, 67791392278071530, 71170783289471340, 74641107148067320, 78202805309339120,
   81854952079373290, 85600016188789930, 89435761746623070, 93364258916791580, 97384670250481700, 101496717842214800,
   105698760137914600, 109993602538973300, 114378287000688000, 118853507644691000, 123419277472281200, 128075996686181800,
   132820580592162100, 137655456547628300, 142578647864983400, 147590521689499600, 152690437463956400, 157878852729327100,
   163152528516638400, 168513362640496500, 173957968965553100, 179484736541084300, 185093104613143000, 190784835080140500,
   196556497277956300, 202410419487986400, 208345433427594900, 214359824832230900, 220450365133188000, 226617296379633500,
   232856279279331500, 239167940620307700, 245550641734726400, 252003950801656000, 258526168288332700, 265118407626359200,
   271775911320378600, 278498538773636200, 285284606228891700, 292132459126393000, 299038431599591100, 306004255968647200,
   313026529044311100, 320104862365552100, 327237324371910700, 334423209544168700, 341658622243036300, 348944976164519100,
   356279251911600300, 363660034025212100, 371085146360031900, 378554326716480500, 386062695189503500, 393610553614043800,
   401195224753281500, 408815272459443200, 416468460349458500, 424155411395509300, 431871045845866000, 439614743914448100,
   447384019490352900, 455176987704813900, 462990137501967700, 470824618788538900, 478676592635263200, 486545433113576800,
   494428714400322200, 502324813138103500, 510229471464588700, 518142926555814600, 526060916224847300, 533982817654486900,
   541906816785494500, 549831282885023300, 557751233747995000, 565667636233856300, 573576882777005900, 581476665547768200]

/-- part 1 of the numerators of `W_N360_7P5MS` -/
def W_N360_7P5MS_num_1 : List Int :=
  [589364661090802300, 597241338441034200, 605102013194532700, 612946170296526600, 620770242419397300, 628572093800007400,
   636348526182129200, 644099662433612400, 651820973301216400, 659513821705787200, 667176381676395000, 674806795170391800,
   682400710845902300, 689958853765865400, 697475722348888800, 704950144755302600, 712379980093130200, 719765434054233100,
   727103832924324100, 734396371869478800, 741638560666120000, 748829639427781600, 755966688050532400, 763049259441821800,
   770072273456678700, 777036981101516800, 783941107955561400, 790781256570410400, 797558113689794200, 804271380965317300,
   810914900592987500, 817490855531113800, 823997093771197200, 830432785018493800, 836796949640853200, 843089297972627900,
   849305847142232800, 855447309567916300, 861511036513328900, 867496280683677300, 873400798399115600, 879227518344297500,
   884972438304695200, 890635718969808300, 896217172709751300, 901716413868111300, 907128770123878200, 912456578161017400,
   917697260839682100, 922848783570287700, 927909917257079700, 932882596476862300, 937763322534182000, 942553355949147500,
   947252428176398400, 951860206252746800, 956376059930714600, 960800601653642600, 965130600153628900, 969366688856792300,
   973508812191283900, 977556540546724800, 981507226076201600, 985364580290060500, 989126208677995700, 992794200680601200,
   996367545084977500, 999846919168316300, 1003228124845146000, 1006513411821911000, 1009700729703874000, 1012790289606342000,
   1015782934360887000, 1018682286908352000, 1021486570410198000, 1024197718428813000, 1026814550859190000, 1029335981099974000,
   1031760429936344000, 1034089812751720000, 1036323258515780000, 1038463607653629000, 1040511956629397000, 1042468314695544000,
   1044333310154580000, 1046108368522362000, 1047790183156567000, 1049383335559126000, 1050885649534276000, 1052299234616223000,
   1053625218490635000, 1054862887578656000, 1056015206502275000, 1057087459299065000, 1058072205849552000, 1058975241719203000,
   1059794467230661000, 1060534138670111000, 1061194118632638000, 1061773655564821000, 1062276617517642000, 1062703237255151000,
   1063055685508735000, 1063338150260194000, 1063547997184066000, 1063686067900426000, 1063755566766962000, 1063757434953141000,
   1063693583520601000, 1063566320618061000, 1063377073891492000, 1063127819699189000, 1062821557530121000, 1062457815392427000,
   1062036342819983000, 1061559958917576000, 1061029510184661000, 1060447965083549000, 1059817091581481000, 1059141628118411000]

/-- part 2 of the numerators of `W_N360_7P5MS` -/
def W_N360_7P5MS_num_2 : List Int :=
  [1058421358875364000, 1057658760384513000, 1056853774077034000, 1056007614360998000, 1055120057365395000, 1054195045438248000,
   1053233455551333000, 1052239850719546000, 1051216675517538000, 1050166369287038000, 1049087785713381000, 1047983664181190000,
   1046853337647985000, 1045698595146235000, 1044520564730305000, 1043323481681635000, 1042108306824389000, 1040879073476582000,
   1039636032987793000, 1038380985588667000, 1037114029603682000, 1035838134533162000, 1034552762539362000, 1033262000621490000,
   1031967497567261000, 1030671997181282000, 1029375639312502000, 1028082437365047000, 1026791666942681000, 1025506352493464000,
   1024226550306258000, 1022955584022344000, 1021692989563247000, 1020444748460154000, 1019207332137853000, 1017999919156420000,
   1017160217193961000, 1015872887197225000, 1014617829299498000, 1013397380801344000, 1012210174593533000, 1011056516187721000,
   1009934436494794000, 1008845591036958000, 1007789557609578000, 1006767901472734000, 1005778512486221000, 1004821733696763000,
   1003895920161236000, 1003002618498964000, 1002140907258662000, 1001312127031557000, 1000514601809148000, 999748987566387500,
   999013486065173600, 998309228756052700, 997634933573801800, 996991885118109500, 996378601374571900, 995795982324255700,
   995242217431552900, 994718132279736700, 994222121603520500, 993755313270096900, 993316215711849600, 992905809264804000,
   992522421568056400, 992166956964938700, 991837703847480700, 991535508409852800, 991258602708850700, 991007878425042100,
   990781722666476500, 990581103872325600, 990404336010643500, 990252266515060700, 990123118186375400, 990017725942080200,
   989934325251675200, 989873711994700000, 989834110063608700, 989816358516333000, 989818706664725300, 989841997633559600,
   989884437608374900, 989946800178719100, 990027287179466600, 990126680433027300, 990243175367708200, 990377593567359100,
   990528133732003900, 990695563551443400, 990878043253864900, 991076301696220600, 991288540103593400, 991515601979036400,
   991755665863856900, 992009469063566800, 992275155432533100, 992553486464065600, 992842692750140800, 993143533338714000,
   993454079661183500, 993775066630663500, 994104689071307600, 994443741563538800, 994790397982871900, 995145361143570100,
   995506799575830500, 995875533622125800, 996249681496845600, 996629918576518600, 997014367015672600, 997403799406302000,
   997796404470101600, 998192870684211900, 998591285561367900, 998992436297826300, 999394506476233300, 999798247074187600]

/-- part 3 of the numerators of `W_N360_7P5MS` -/
def W_N360_7P5MS_num_3 : List Int :=
  [1000201793638269000, 1000605860368296000, 1001008579910682000, 1001410701714506000, 1001810400944408000, 1002208462087081000,
   1002602958395831000, 1002994573682287000, 1003381477277237000, 1003764436338408000, 1004141548053574000, 1004513480396200000,
   1004878321344784000, 1005236884099094000, 1005587302935534000, 1005930271724399000, 1006263925890636000, 1006589051746658000,
   1006903802351948000, 1007208903587772000, 1007502380110983000, 1007784982346051000, 1008054893814649000, 1008312868199207000,
   1008556999006399000, 1008788016348394000, 1009004047709048000, 1009205932867561000, 1009391822060050000, 1009562440424896000,
   1009715896739930000, 1009852958217732000, 1009971774079105000, 1010073169648632000, 1010155293011166000, 1010218932642345000,
   1010262246288524000, 1010286018304889000, 1010288415013601000, 1010270296641665000, 1010229878703309000, 1010168022758243000,
   1010082924574326000, 1009975407736885000, 1009843687123529000, 1009688632854747000, 1009508455280294000, 1009304044596942000,
   1009073713509976000, 1008818483155921000, 1008536750845889000, 1008229467503460000, 1007894884001199000, 1007533913863759000,
   1007144877861525000, 1006728757854175000, 1006283927891016000, 1005811456284196000, 1005309913983530000, 1004780527277797000,
   1004221766054862000, 1003634560818982000, 1003017190938855000, 1002370673225852000, 1001693634792953000, 1000987488105603000,
   1000251075456674000, 999485662869670200, 998689592389690400, 997863666433377400, 997006370229165200, 996119199129118300,
   995201403855962200, 994254686877395200, 993277595101280600, 992270650602835900, 991231967393676700, 990163285718552500,
   989064393522321600, 987937115334336800, 986779736108307600, 985592773084235800, 984375124686103400, 983129287890062300,
   981348462911327600, 979890963312768400, 978400458984906400, 976860435411572400, 975269878842858700, 973627353241611800,
   971931340983222800, 970180498004025300, 968372651965256700, 966506952259706800, 964580026820327700, 962592317588312300,
   960540986343273000, 958425533515527500, 956244393275019300, 953998415902893100, 951684013845583100, 949301185363779100,
   946846884329832300, 944320232231505000, 941718404323326800, 939042579646709600, 936290624169876600, 933464049736310100,
   930560853876880800, 927580506944231600, 924519591719516400, 921378471441384800, 918153413723034900, 914844695613022000,
   911451651601712400, 907976524013805700, 904417545083185900, 900776307727861700, 897050058479312300, 893238397854931400]

/-- part 4 of the numerators of `W_N360_7P5MS` -/
def W_N360_7P5MS_num_4 : List Int :=
  [889338680564777800, 885351360384817700, 881274022956676700, 877109637913966100, 872857926504399800, 868519505092655100,
   864092796449042500, 859579818650462200, 854976006559576000, 850285220126344600, 845502615038655000, 840630470320405100,
   835667925492783300, 830619943301480100, 825482006990558700, 820258908705916400, 814946648157534000, 809546695921390900,
   804059977858175700, 798489377529440600, 792831417318078300, 787090668112010100, 781262449660145100, 775353946896531300,
   769363612973807500, 763291769255088100, 757139016438537500, 750901711179743600, 744590843420388300, 738205135983221700,
   731738075019975700, 725199287080916500, 718588225289592700, 711905686689259900, 705153668360854500, 698332634155136600,
   691444101223866700, 684490544603818500, 677470119276871700, 670388375375255300, 663245209931378300, 656045780075393700,
   648788626910908300, 641477161661818500, 634114322697442800, 626702000288599900, 619235333635541300, 611720595766812800,
   604161612008371900, 596559132542786000, 588914400742527000, 581234783414194200, 573519989364814300, 565770615838341100,
   557988067156797800, 550173851023454200, 542330193938632500, 534460798055782500, 526568538230012700, 518656324106017400,
   510728812610530200, 502781158663801800, 494819490990687200, 486845139248641700, 478860889056187100, 470869928237011500,
   462875144056541300, 454877894349080700, 446882512027806000, 438889324991180900, 430898122898975700, 422918322377785600,
   414950877976117000, 406993964205624300, 399052648395749800, 391134613511555700, 383234030582780700, 375354652658443600,
   367502059648862100, 359680098334455900, 351887311977221100, 344130165828257200, 336408100091302500, 328728966167384600,
   321090505163295800, 313496418152646700, 305951564939720100, 298454318724067800, 291010565493870300, 283621109377504200,
   276285415057373100, 269019585108745400, 261812445205796200, 254659232371968300, 247584347561867200, 240578694191260200,
   233647008666277600, 226788433385198900, 220001991767834700, 213301325170392700, 206677770653848400, 200140409104345300,
   193683630277596700, 187310343238419300, 181027383883624800, 174839476062309400, 168739644125069000, 162737273481917400,
   156825277050682600, 151012382058897600, 145298229536747300, 139687469382980900, 134171842279708800, 128762544136019400,
   123455562073147700, 118254662325635200, 113159676766304500, 108171439273589900, 103290733977459400, 98520297790634260]

/-- part 5 of the numerators of `W_N360_7P5MS` -/
def W_N360_7P5MS_num_5 : List Int :=
  [93860002260481400, 89311736027255160, 84875210288299310, 80552373732218810, 76342978660417700, 72248924560888090,
   68269911954878580, 64407729145858950, 60662000284144720, 57034371114724320, 53524371473939330, 50133468968510770,
   46861078960772980, 43708445281992260, 40674836525949740, 37761226906563160, 34966709915340840, 32291927483312410,
   29735766870310240, 27298462926482970, 24978718561112640, 22776254183207120, 20689580803487800, 18717816934706490,
   16859341752878050, 15112512523527580, 13475709449511770, 11946270912184820, 10522875381189000, 9201309412840026,
   7981243163732707, 6855473143120775, 5826573343851640, 4878385254226555, 4023511190940970, 3154186627586960,
   0, 0, 0, 0, 0, 0,
   0, 0, 0, 0, 0, 0,
   0, 0, 0, 0, 0, 0,
   0, 0, 0, 0, 0, 0,
   0, 0, 0, 0, 0, 0,
   0, 0, 0, 0, 0, 0,
   0, 0, 0, 0, 0, 0,
   0, 0, 0, 0, 0, 0,
   0, 0, 0, 0, 0, 0,
   0, 0, 0, 0, 0, 0,
   0, 0, 0, 0, 0, 0,
   0, 0, 0, 0, 0, 0,
   0, 0, 0, 0, 0, 0,
   0, 0, 0, 0, 0, 0]

/-- numerators of `W_N360_7P5MS` -/
def W_N360_7P5MS_num : List Int :=
  List.flatten [W_N360_7P5MS_num_0, W_N360_7P5MS_num_1, W_N360_7P5MS_num_2, W_N360_7P5MS_num_3, W_N360_7P5MS_num_4, W_N360_7P5MS_num_5]

/-- `W_N360_7P5MS`, tables/mdct_windows.rs lines 816-961 -/
def W_N360_7P5MS : List Rat := W_N360_7P5MS_num.map fun n => mkRat n W_N360_7P5MS_den

end Lc3.Tables
