import Mathlib.Data.Rat.Defs
/-! Generated by tools/gen_float_tables.py from /repo/src/tables/long_term_post_filter_coef.rs (post filter coefficients). Do not edit. -/

namespace Lc3.Tables

/-- common denominator of the entries of `TAB_RESAMP_FILTER` -/
def TAB_RESAMP_FILTER_den : Nat := 5000000000000000000000000000000000

/-- part 0 of the numerators of `TAB_RESAMP_FILTER` -/
def TAB_RESAMP_FILTER_num_0 : List Int :=
  [-102152791643955400000000000000, -223172946837854050000000000000, -358183199724072950000000000000, -500505566327957000000000000000, -641864240330197500000000000000, -772719148852331000000000000000,
   -882722835628834000000000000000, -961284799792401000000000000000, -998219096250191000000000000000, -984443428200273500000000000000, -912691659417345000000000000000, -778197133023401500000000000000,
   -579301825896319000000000000000, -317946516767448850000000000000, 1405032397533893, 364609010650066850000000000000, 761985378822136000000000000000, 1174603884949453000000000000000,
   1581893248132634500000000000000, 1961058690447368000000000000000, 2288119245532196000000000000000, 2539121468352432000000000000000, 2691477615522957500000000000000, 2725364588087937500000000000000,
   2625110774135491000000000000000, 2380492121473674500000000000000, 1987856899632395500000000000000, 1451001086453590000000000000000, 781723334987807500000000000000, -2909400708461790,
   -866263563949026000000000000000, -1781929826650380000000000000000, -2705776154400573500000000000000, -3592070114837510000000000000000, -4392526157981927000000000000000, -5058572568486410000000000000000,
   -5543835278161520000000000000000, -5806726102419980000000000000000, -5813008472323100000000000000000, -5538204870741105000000000000000, -4969707815781507500000000000000, -4108460949256612500000000000000,
   -2970088828962954000000000000000, -1585373267691364000000000000000, 4873475409389767, 1726468802114473500000000000000, 3522404352729352500000000000000, 5306672328314820000000000000000,
   6991873672442745000000000000000, 8488153996752620000000000000000, 9707433743658300000000000000000, 10567879533346775000000000000000, 10998412260899820000000000000000, 10943031232588145000000000000000,
   10364727294866475000000000000000, 9248762456569540000000000000000, 7605109384543690000000000000000, 5469871275084245000000000000000, 2905540312213082000000000000000, -7112413281994995,
   -3135768651614102000000000000000, -6371257024567235000000000000000, -9561191949250910000000000000000, -12551346246903820000000000000000, -15185191493149125000000000000000, -17311134355507675000000000000000,
   -18790033597982365000000000000000, -19502662334742045000000000000000, -19356761549479190000000000000000, -18293327918398610000000000000000, -16291792563234230000000000000000, -13373777757541745000000000000000,
   -9605165271842280000000000000000, -5096271634193200000000000000000, 9348118454477965, 5492077233661315000000000000000, 11155659867664115000000000000000, 16741546363844175000000000000000,
   21985113871932550000000000000000, 26617133613224500000000000000000, 30375526551843500000000000000000, 33017601237760565000000000000000, 34332269935965135000000000000000, 34151713479534730000000000000000,
   32361961717747120000000000000000, 28911876069781870000000000000000, 23820063631948695000000000000000, 17179317570567335000000000000000, 9158264177033285000000000000000, -11259491864193315,
   -9982380941396850000000000000000, -20413344294595500000000000000000, -30865401874647120000000000000000, -40872244729871040000000000000000, -49944119321663455000000000000000, -57584935290999500000000000000000,
   -63310502803198150000000000000000, -66667228975924050000000000000000, -67250559967196700000000000000000, -64722440481957700000000000000000, -58827077150146200000000000000000, -49404336602006470000000000000000,
   -36400182011960410000000000000000, -19873651045759035000000000000000, 12548088886251955, 22930221098587335000000000000000, 48516244991918395000000000000000, 76256238540900500000000000000000,
   105560292700650850000000000000000, 135766861804706850000000000000000, 166162122542155700000000000000000, 196001601451006500000000000000000, 224533322171339300000000000000000, 251021654400892300000000000000000,
   274771008634077900000000000000000, 295148516218795400000000000000000, 311604863533648800000000000000000, 323692511263036550000000000000000, 331080622542042900000000000000000, 333566143580980600000000000000000]

/-- part 1 of the numerators of `TAB_RESAMP_FILTER` -/
def TAB_RESAMP_FILTER_num_1 : List Int :=
  [331080622542042900000000000000000, 323692511263036550000000000000000, 311604863533648800000000000000000, 295148516218795400000000000000000, 274771008634077900000000000000000, 251021654400892300000000000000000,
   224533322171339300000000000000000, 196001601451006500000000000000000, 166162122542155700000000000000000, 135766861804706850000000000000000, 105560292700650850000000000000000, 76256238540900500000000000000000,
   48516244991918395000000000000000, 22930221098587335000000000000000, 12548088886251955, -19873651045759035000000000000000, -36400182011960410000000000000000, -49404336602006470000000000000000,
   -58827077150146200000000000000000, -64722440481957700000000000000000, -67250559967196700000000000000000, -66667228975924050000000000000000, -63310502803198150000000000000000, -57584935290999500000000000000000,
   -49944119321663455000000000000000, -40872244729871040000000000000000, -30865401874647120000000000000000, -20413344294595500000000000000000, -9982380941396850000000000000000, -11259491864193315,
   9158264177033285000000000000000, 17179317570567335000000000000000, 23820063631948695000000000000000, 28911876069781870000000000000000, 32361961717747120000000000000000, 34151713479534730000000000000000,
   34332269935965135000000000000000, 33017601237760565000000000000000, 30375526551843500000000000000000, 26617133613224500000000000000000, 21985113871932550000000000000000, 16741546363844175000000000000000,
   11155659867664115000000000000000, 5492077233661315000000000000000, 9348118454477965, -5096271634193200000000000000000, -9605165271842280000000000000000, -13373777757541745000000000000000,
   -16291792563234230000000000000000, -18293327918398610000000000000000, -19356761549479190000000000000000, -19502662334742045000000000000000, -18790033597982365000000000000000, -17311134355507675000000000000000,
   -15185191493149125000000000000000, -12551346246903820000000000000000, -9561191949250910000000000000000, -6371257024567235000000000000000, -3135768651614102000000000000000, -7112413281994995,
   2905540312213082000000000000000, 5469871275084245000000000000000, 7605109384543690000000000000000, 9248762456569540000000000000000, 10364727294866475000000000000000, 10943031232588145000000000000000,
   10998412260899820000000000000000, 10567879533346775000000000000000, 9707433743658300000000000000000, 8488153996752620000000000000000, 6991873672442745000000000000000, 5306672328314820000000000000000,
   3522404352729352500000000000000, 1726468802114473500000000000000, 4873475409389767, -1585373267691364000000000000000, -2970088828962954000000000000000, -4108460949256612500000000000000,
   -4969707815781507500000000000000, -5538204870741105000000000000000, -5813008472323100000000000000000, -5806726102419980000000000000000, -5543835278161520000000000000000, -5058572568486410000000000000000,
   -4392526157981927000000000000000, -3592070114837510000000000000000, -2705776154400573500000000000000, -1781929826650380000000000000000, -866263563949026000000000000000, -2909400708461790,
   781723334987807500000000000000, 1451001086453590000000000000000, 1987856899632395500000000000000, 2380492121473674500000000000000, 2625110774135491000000000000000, 2725364588087937500000000000000,
   2691477615522957500000000000000, 2539121468352432000000000000000, 2288119245532196000000000000000, 1961058690447368000000000000000, 1581893248132634500000000000000, 1174603884949453000000000000000,
   761985378822136000000000000000, 364609010650066850000000000000, 1405032397533893, -317946516767448850000000000000, -579301825896319000000000000000, -778197133023401500000000000000,
   -912691659417345000000000000000, -984443428200273500000000000000, -998219096250191000000000000000, -961284799792401000000000000000, -882722835628834000000000000000, -772719148852331000000000000000,
   -641864240330197500000000000000, -500505566327957000000000000000, -358183199724072950000000000000, -223172946837854050000000000000, -102152791643955400000000000000]

/-- numerators of `TAB_RESAMP_FILTER` -/
def TAB_RESAMP_FILTER_num : List Int :=
  List.flatten [TAB_RESAMP_FILTER_num_0, TAB_RESAMP_FILTER_num_1]

/-- `TAB_RESAMP_FILTER`, tables/long_term_post_filter_coef.rs lines 6-63 -/
def TAB_RESAMP_FILTER : List Rat := TAB_RESAMP_FILTER_num.map fun n => mkRat n TAB_RESAMP_FILTER_den

/-- common denominator of the entries of `TAB_LTPF_INTERP_R` -/
def TAB_LTPF_INTERP_R_den : Nat := 1000000000000000000

/-- part 0 of the numerators of `TAB_LTPF_INTERP_R` -/
def TAB_LTPF_INTERP_R_num_0 : List Int :=
  [-2874561161519444, -3001251025861499, 2745471654059321, 15357276989353220, 28682340466656570, 29503850265573770,
   4598334491135473, -47296324590434400, -105835916306283700, -130305021360711200, -75440463575552010, 83578857252505290,
   330182571076445900, 603297007636615800, 817488685624317800, 898638285127398200, 817488685624317800, 603297007636615800,
   330182571076445900, 83578857252505290, -75440463575552010, -130305021360711200, -105835916306283700, -47296324590434400,
   4598334491135473, 29503850265573770, 28682340466656570, 15357276989353220, 2745471654059321, -3001251025861499,
   -2874561161519444]

/-- numerators of `TAB_LTPF_INTERP_R` -/
def TAB_LTPF_INTERP_R_num : List Int :=
  List.flatten [TAB_LTPF_INTERP_R_num_0]

/-- `TAB_LTPF_INTERP_R`, tables/long_term_post_filter_coef.rs lines 66-77 -/
def TAB_LTPF_INTERP_R : List Rat := TAB_LTPF_INTERP_R_num.map fun n => mkRat n TAB_LTPF_INTERP_R_den

/-- common denominator of the entries of `TAB_LTPF_INTERP_X12K8` -/
def TAB_LTPF_INTERP_X12K8_den : Nat := 100000000000000000

/-- part 0 of the numerators of `TAB_LTPF_INTERP_X12K8` -/
def TAB_LTPF_INTERP_X12K8_num_0 : List Int :=
  [669885836693968, 3967114782344967, 10699918608963890, 20988046306818090, 33569062541478400, 45922092960823500,
   55007500191771160, 58352757542212110, 55007500191771160, 45922092960823500, 33569062541478400, 20988046306818090,
   10699918608963890, 3967114782344967, 669885836693968]

/-- numerators of `TAB_LTPF_INTERP_X12K8` -/
def TAB_LTPF_INTERP_X12K8_num : List Int :=
  List.flatten [TAB_LTPF_INTERP_X12K8_num_0]

/-- `TAB_LTPF_INTERP_X12K8`, tables/long_term_post_filter_coef.rs lines 80-84 -/
def TAB_LTPF_INTERP_X12K8 : List Rat := TAB_LTPF_INTERP_X12K8_num.map fun n => mkRat n TAB_LTPF_INTERP_X12K8_den

/-- common denominator of the entries of `TAB_LTPF_NUM_8000` -/
def TAB_LTPF_NUM_8000_den : Nat := 100000000000000000

/-- numerators of `TAB_LTPF_NUM_8000` -/
def TAB_LTPF_NUM_8000_num : List (List Int) :=
  [[60236182070095780, 41976092613636170, -1883424527883687],
   [59947685825843140, 41976092613636200, -1594928283631041],
   [59677646637337870, 41976092613636170, -1324889095125780],
   [59424101200988950, 41976092613636180, -1071343658776831]]

/-- `TAB_LTPF_NUM_8000`, tables/long_term_post_filter_coef.rs lines 87-92 -/
def TAB_LTPF_NUM_8000 : List (List Rat) := TAB_LTPF_NUM_8000_num.map (·.map fun n => mkRat n TAB_LTPF_NUM_8000_den)

/-- common denominator of the entries of `TAB_LTPF_NUM_16000` -/
def TAB_LTPF_NUM_16000_den : Nat := 100000000000000000

/-- numerators of `TAB_LTPF_NUM_16000` -/
def TAB_LTPF_NUM_16000_num : List (List Int) :=
  [[60236182070095780, 41976092613636170, -1883424527883687],
   [59947685825843140, 41976092613636200, -1594928283631041],
   [59677646637337870, 41976092613636170, -1324889095125780],
   [59424101200988950, 41976092613636180, -1071343658776831]]

/-- `TAB_LTPF_NUM_16000`, tables/long_term_post_filter_coef.rs lines 95-100 -/
def TAB_LTPF_NUM_16000 : List (List Rat) := TAB_LTPF_NUM_16000_num.map (·.map fun n => mkRat n TAB_LTPF_NUM_16000_den)

/-- common denominator of the entries of `TAB_LTPF_NUM_24000` -/
def TAB_LTPF_NUM_24000_den : Nat := 10000000000000000000

/-- numerators of `TAB_LTPF_NUM_24000` -/
def TAB_LTPF_NUM_24000_num : List (List Int) :=
  [[3989695588963494000, 5142508607708275000, 1004382966157454000, -127889395681804200, -15722800754613830],
   [3948634911286333000, 5123819208048688000, 1043194926386267000, -109199996022216600, -13474083306273170],
   [3909844475885914000, 5106053522688359000, 1079832524685944000, -91434310661888480, -11321246205518950],
   [3873093888199928000, 5089122083363975000, 1114517380217371000, -74502871337507170, -9255514050963111]]

/-- `TAB_LTPF_NUM_24000`, tables/long_term_post_filter_coef.rs lines 103-120 -/
def TAB_LTPF_NUM_24000 : List (List Rat) := TAB_LTPF_NUM_24000_num.map (·.map fun n => mkRat n TAB_LTPF_NUM_24000_den)

/-- common denominator of the entries of `TAB_LTPF_NUM_32000` -/
def TAB_LTPF_NUM_32000_den : Nat := 5000000000000000000

/-- numerators of `TAB_LTPF_NUM_32000` -/
def TAB_LTPF_NUM_32000_num : List (List Int) :=
  [[1491189723351048000, 2326404601860645000, 1052998714307139500, 188339019040303150, -50784807789828200, -12679404980505480, -1591473084359979],
   [1471917077255120000, 2309647001359399000, 1064732885045922000, 203308750134442850, -43466361485050250, -10891535573399100, -1371444031991594],
   [1453719606561344000, 2293730955480139500, 1075728487054485000, 217505238626488700, -36477476738584625, -9171978186185430, -1158460093241208],
   [1436487926294579000, 2278574443430689500, 1086063475455700500, 231004443911480750, -29787319010629760, -7514671421725990, -951925955654433]]

/-- `TAB_LTPF_NUM_32000`, tables/long_term_post_filter_coef.rs lines 123-140 -/
def TAB_LTPF_NUM_32000 : List (List Rat) := TAB_LTPF_NUM_32000_num.map (·.map fun n => mkRat n TAB_LTPF_NUM_32000_den)

/-- common denominator of the entries of `TAB_LTPF_NUM_48000` -/
def TAB_LTPF_NUM_48000_den : Nat := 100000000000000000000

/-- numerators of `TAB_LTPF_NUM_48000` -/
def TAB_LTPF_NUM_48000_num : List (List Int) :=
  [[19813637398832170000, 35244949039649040000, 25136952696494140000, 14241462373144580000, 5704731023952599000, 929336624158638400, -722602536895374500, -317267989035635600, -112183596356701400, -29029572384001400, -4270815593769240],
   [19507094265983750000, 34846604083416320000, 25099884594665740000, 14411674124820880000, 5928947317677285000, 1108923827452231000, -619290810865350400, -272670550925173700, -96671258262171510, -25081009231652040, -3699938766131869],
   [19218100551960150000, 34469455610915130000, 25062200946260240000, 14571024476648370000, 6141132133664525000, 1279941396562798000, -520372108788632100, -229732451110908500, -81656081332175550, -21238557482774080, -3141271330981649],
   [18944853141758680000, 34111392511082520000, 25024068768943610000, 14720656310980810000, 6342477229539051000, 1443203434150312000, -425444914465709800, -188308147261349300, -67096190607221400, -17493633419668720, -2593864735284285]]

/-- `TAB_LTPF_NUM_48000`, tables/long_term_post_filter_coef.rs lines 143-164 -/
def TAB_LTPF_NUM_48000 : List (List Rat) := TAB_LTPF_NUM_48000_num.map (·.map fun n => mkRat n TAB_LTPF_NUM_48000_den)

/-- common denominator of the entries of `TAB_LTPF_DEN_8000` -/
def TAB_LTPF_DEN_8000_den : Nat := 100000000000000000

/-- numerators of `TAB_LTPF_DEN_8000` -/
def TAB_LTPF_DEN_8000_num : List (List Int) :=
  [[0, 20988046306818090, 58352757542212110, 20988046306818090, 0],
   [0, 10699918608963890, 55007500191771160, 33569062541478400, 669885836693968],
   [0, 3967114782344967, 45922092960823500, 45922092960823500, 3967114782344967],
   [0, 669885836693968, 33569062541478400, 55007500191771160, 10699918608963890]]

/-- `TAB_LTPF_DEN_8000`, tables/long_term_post_filter_coef.rs lines 167-183 -/
def TAB_LTPF_DEN_8000 : List (List Rat) := TAB_LTPF_DEN_8000_num.map (·.map fun n => mkRat n TAB_LTPF_DEN_8000_den)

/-- common denominator of the entries of `TAB_LTPF_DEN_16000` -/
def TAB_LTPF_DEN_16000_den : Nat := 100000000000000000

/-- numerators of `TAB_LTPF_DEN_16000` -/
def TAB_LTPF_DEN_16000_num : List (List Int) :=
  [[0, 20988046306818090, 58352757542212110, 20988046306818090, 0],
   [0, 10699918608963890, 55007500191771160, 33569062541478400, 669885836693968],
   [0, 3967114782344967, 45922092960823500, 45922092960823500, 3967114782344967],
   [0, 669885836693968, 33569062541478400, 55007500191771160, 10699918608963890]]

/-- `TAB_LTPF_DEN_16000`, tables/long_term_post_filter_coef.rs lines 186-202 -/
def TAB_LTPF_DEN_16000 : List (List Rat) := TAB_LTPF_DEN_16000_num.map (·.map fun n => mkRat n TAB_LTPF_DEN_16000_den)

/-- common denominator of the entries of `TAB_LTPF_DEN_24000` -/
def TAB_LTPF_DEN_24000_den : Nat := 500000000000000000

/-- numerators of `TAB_LTPF_DEN_24000` -/
def TAB_LTPF_DEN_24000_num : List (List Int) :=
  [[0, 31611158136618980, 125365480300661750, 185695471445078900, 125365480300661750, 31611158136618980, 0],
   [0, 17296360870499275, 99325780132251400, 181320586329072600, 149337527449608950, 50654643675296400, 2131771856184876],
   [0, 7678733924819535, 73717243902911100, 168712977699535850, 168712977699535850, 73717243902911100, 7678733924819535],
   [0, 2131771856184876, 50654643675296400, 149337527449608950, 181320586329072600, 99325780132251400, 17296360870499275]]

/-- `TAB_LTPF_DEN_24000`, tables/long_term_post_filter_coef.rs lines 205-222 -/
def TAB_LTPF_DEN_24000 : List (List Rat) := TAB_LTPF_DEN_24000_num.map (·.map fun n => mkRat n TAB_LTPF_DEN_24000_den)

/-- common denominator of the entries of `TAB_LTPF_DEN_32000` -/
def TAB_LTPF_DEN_32000_den : Nat := 1000000000000000000

/-- numerators of `TAB_LTPF_DEN_32000` -/
def TAB_LTPF_DEN_32000_num : List (List Int) :=
  [[0, 29004018782287300, 112985742056092700, 221202402809757000, 272390947244614500, 221202402809757000, 112985742056092700, 29004018782287300, 0],
   [0, 17031534183852610, 87225037855377840, 196140776223219900, 268923798223725700, 242499910275638900, 140577336465003100, 44748771694857880, 3127030243100724],
   [0, 8563673748488349, 64262229444938450, 168767670591801200, 258744593779550500, 258744593779550500, 168767670591801200, 64262229444938450, 8563673748488349],
   [0, 3127030243100724, 44748771694857880, 140577336465003100, 242499910275638900, 268923798223725700, 196140776223219900, 87225037855377840, 17031534183852610]]

/-- `TAB_LTPF_DEN_32000`, tables/long_term_post_filter_coef.rs lines 225-246 -/
def TAB_LTPF_DEN_32000 : List (List Rat) := TAB_LTPF_DEN_32000_num.map (·.map fun n => mkRat n TAB_LTPF_DEN_32000_den)

/-- common denominator of the entries of `TAB_LTPF_DEN_48000` -/
def TAB_LTPF_DEN_48000_den : Nat := 500000000000000000

/-- numerators of `TAB_LTPF_DEN_48000` -/
def TAB_LTPF_DEN_48000_num : List (List Int) :=
  [[0, 5411796933296935, 18044846106519895, 38382007340499820, 62076528875085150, 81379821915034800, 88838570888955450, 81379821915034800, 62076528875085150, 38382007340499820, 18044846106519895, 5411796933296935, 0],
   [0, 3520702465229679, 14098511599102100, 32735224675637755, 56232399337164950, 77420947824450750, 88356119067092850, 84575360652883150, 67645078899488300, 44257125057137415, 22496769242812220, 7788068573660010, 1019860978251008],
   [0, 2073499233722394, 10678786553709585, 27413677922764080, 50248572232186000, 72803017141500100, 86921991928293450, 86921991928293450, 72803017141500100, 50248572232186000, 27413677922764080, 10678786553709585, 2073499233722394],
   [0, 1019860978251008, 7788068573660010, 22496769242812220, 44257125057137415, 67645078899488300, 84575360652883150, 88356119067092850, 77420947824450750, 56232399337164950, 32735224675637755, 14098511599102100, 3520702465229679]]

/-- `TAB_LTPF_DEN_48000`, tables/long_term_post_filter_coef.rs lines 249-274 -/
def TAB_LTPF_DEN_48000 : List (List Rat) := TAB_LTPF_DEN_48000_num.map (·.map fun n => mkRat n TAB_LTPF_DEN_48000_den)

end Lc3.Tables
