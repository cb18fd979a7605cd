import Verif.Model.Conv
/-!
# The floating-point model against a floating-point unit

Generated by tools/mkhw.py. Each row holds an operation, two operands and the result that an x86-64 processor gave for them
in the stated rounding direction: SSE for `float` and `double`, x87 for `long double`. The model has to give the same
results. These are tests of the model of the hardware, not proofs of properties.
-/

namespace BI.Suite.Hardware

/-- A number: mantissa and exponent; `(0, 2)` is NaN, `(0, 1)` is -0, `(±1, 99999)` are the infinities. -/
abbrev Code := Int × Int
/-- Operation, operands, result. -/
abbrev Row := Nat × Code × Code × Code

def dec (f : Fmt) : Code → Fl f
  | (0, 2) => .nan
  | (0, 1) => .zero true
  | (1, 99999) => .inf false
  | (-1, 99999) => .inf true
  | (m, e) => rnd f .near false ((m : ℚ) * 2 ^ e)

def bit (f : Fmt) (b : Bool) : Fl f := if b then Fl.ofInt .near 1 else .zero false

def run (f : Fmt) (r : RMode) (a b : Fl f) : Nat → Fl f
  | 0 => a.add r b
  | 1 => a.sub r b
  | 2 => a.mul r b
  | 3 => a.div r b
  | 4 => a.sqrt r
  | 5 => a.rint r
  | 6 => a.rint .down
  | 7 => a.rint .up
  | 8 => bit f (a.lt b)
  | 9 => bit f (a.le b)
  | _ => bit f (a.eq b)

def arith (f : Fmt) (r : RMode) (x : Row) : Bool :=
  decide (run f r (dec f x.2.1) (dec f x.2.2.1) x.1 = dec f x.2.2.2)

/-- Conversion from the format `g` to the format `f`. -/
def conv (g f : Fmt) (r : RMode) (x : Row) : Bool :=
  decide ((dec g x.2.1).convert f r = dec f x.2.2.2)

/-- Conversion of an integer. -/
def ofInt (f : Fmt) (r : RMode) (x : Row) : Bool :=
  decide ((Fl.ofInt r x.2.1.1 : Fl f) = dec f x.2.2.2)


example : ([
  (0, (112211080135504771, -59), (0, 0), (876649063558631, -52)),
  (0, (1, -16445), (0, 0), (0, 0)),
  (0, (-16874391296208416853, -67), (0, 0), (-4119724437550883, -55)),
  (0, (-1, 0), (0, 0), (-1, 0)),
  (0, (-18446744073709551615, -61), (0, 0), (-1, 3)),
  (0, (1, 99999), (0, 0), (1, 99999))] : List Row).all (conv .extended .double .near) = true := by
  decide +kernel

example : ([
  (0, (3, -1), (0, 0), (3, -1)),
  (0, (1, 99999), (0, 0), (1, 99999)),
  (0, (0, 0), (0, 0), (0, 0)),
  (0, (0, 2), (0, 0), (0, 2)),
  (0, (-223677821008481819, -64), (0, 0), (-6989931906515057, -59)),
  (0, (-475967365749398569, -59), (0, 0), (-7436990089834353, -53))] : List Row).all (conv .extended .double .down) = true := by
  decide +kernel

example : ([
  (0, (1871337797446583325, 16322), (0, 0), (1, 99999)),
  (0, (15307559193314319865, 16318), (0, 0), (1, 99999)),
  (0, (54035785756302747, -68), (0, 0), (1688618304884461, -63)),
  (0, (-18446744073709551615, -63), (0, 0), (-9007199254740991, -52)),
  (0, (2324599638962113, -63), (0, 0), (2324599638962113, -63)),
  (0, (1453291887839070659, -64), (0, 0), (2838460718435685, -55))] : List Row).all (conv .extended .double .up) = true := by
  decide +kernel

example : ([
  (0, (15320520545206595569, -66), (0, 0), (7480722922464157, -55)),
  (0, (-14275308891845678847, -62), (0, 0), (-3485182834923261, -50)),
  (0, (-842807602873, -64), (0, 0), (-842807602873, -64)),
  (0, (-7360403845434365553, -62), (0, 0), (-7187894380306997, -52)),
  (0, (-18446744073709551615, -65), (0, 0), (-9007199254740991, -54)),
  (0, (4041928827152973347, -59), (0, 0), (7894392240533151, -50))] : List Row).all (conv .extended .double .zero) = true := by
  decide +kernel

example : ([
  (0, (1, -1022), (0, 0), (0, 0)),
  (0, (-3247427, 102), (0, 0), (-3247427, 102)),
  (0, (8917255572601895, -53), (0, 0), (16609683, -24)),
  (0, (-400049978918375, -45), (0, 0), (-5961209, -19)),
  (0, (2969965, 76), (0, 0), (2969965, 76)),
  (0, (-6946895, -51), (0, 0), (-6946895, -51))] : List Row).all (conv .double .single .near) = true := by
  decide +kernel

example : ([
  (0, (773635806524195, -49), (0, 0), (11528071, -23)),
  (0, (10560617, 102), (0, 0), (10560617, 102)),
  (0, (9007199254740991, -49), (0, 0), (16777215, -20)),
  (0, (9007199254740991, 971), (0, 0), (16777215, 104)),
  (0, (3754879, -25), (0, 0), (3754879, -25)),
  (0, (0, 1), (0, 0), (0, 1))] : List Row).all (conv .double .single .down) = true := by
  decide +kernel

example : ([
  (0, (402643136788101, 968), (0, 0), (1, 99999)),
  (0, (-3324779, 101), (0, 0), (-3324779, 101)),
  (0, (-5, -1), (0, 0), (-5, -1)),
  (0, (0, 1), (0, 0), (0, 1)),
  (0, (4398029471745, -46), (0, 0), (262143, -22)),
  (0, (-187141215194045, -1070), (0, 0), (0, 1))] : List Row).all (conv .double .single .up) = true := by
  decide +kernel

example : ([
  (0, (-710960892369067, 971), (0, 0), (-16777215, 104)),
  (0, (-4086533338425553, -49), (0, 0), (-7611761, -20)),
  (0, (3036746225380757, 970), (0, 0), (16777215, 104)),
  (0, (-494273353, -47), (0, 0), (-7723021, -41)),
  (0, (-13820431, 77), (0, 0), (-13820431, 77)),
  (0, (-2107154749415743, -1073), (0, 0), (0, 1))] : List Row).all (conv .double .single .zero) = true := by
  decide +kernel

example : ([
  (0, (1093352460953477, -45), (-416820467608161, -1071), (1093352460953477, -45)),
  (0, (2178615150563015, -1074), (2183338455668653, -51), (2183338455668653, -51)),
  (0, (-1223380473228979, -51), (9007199254740991, -54), (-779844531090841, -54)),
  (0, (-6128156487900135, -48), (2992843197787961, -1074), (-6128156487900135, -48)),
  (0, (-1, -1074), (220835055661187, -47), (220835055661187, -47)),
  (1, (29763705639797, -1073), (-9007199254740991, 971), (9007199254740991, 971)),
  (1, (9007199254740991, -55), (30940140266097, -46), (-6834152561500673, -55)),
  (1, (-1, -1022), (-892146275035675, 970), (892146275035675, 970)),
  (1, (-1, 0), (5542800132704009, -49), (-6105750086125321, -49)),
  (1, (-4205107493510099, -45), (-5320464912044331, 968), (5320464912044331, 968)),
  (2, (-9007199254740991, -47), (-8836639249094629, -48), (2209159812273657, -40)),
  (2, (-4900128725535729, 970), (-1354050337945, -45), (6034516406348899, 965)),
  (2, (83544858970081, 975), (-2030917972959, -48), (-617265889125201, 965)),
  (2, (-2158851884081937, 973), (-1017858350765473, -49), (1, 99999)),
  (2, (17618963, -51), (-3097943505874535, -51), (-3253373623257501, -78)),
  (3, (-480781730738097, -45), (1, 99999), (0, 1)),
  (3, (1, 99999), (0, 2), (0, 2)),
  (3, (847828733651075, -50), (965769851407413, -1073), (494201745294261, 974)),
  (3, (-455821914241547, -48), (3082579835002753, -46), (-5327587963342929, -57)),
  (3, (5602495170939, 974), (-25, -47), (-1, 99999)),
  (4, (-4644907290482913, -51), (774156804853843, -53), (0, 2)),
  (4, (2389649947493319, 970), (-9007199254740991, -50), (820138197694329, 461)),
  (4, (-849902053786901, 973), (-9007199254740991, -49), (0, 2)),
  (4, (9007199254740991, -57), (0, 0), (9007199254740991, -55)),
  (4, (-7536494826637375, -56), (3877924734811635, -46), (0, 2)),
  (5, (90892184864669, -45), (-651329973267799, -51), (3, 0)),
  (5, (851128803381293, -1074), (9007199254740991, -57), (0, 0)),
  (5, (0, 2), (357350019688949, -1074), (0, 2)),
  (5, (-5033, -47), (3277598752474239, -1074), (0, 1)),
  (5, (-1974308688291381, -46), (0, 2), (-7, 2)),
  (6, (2185039075575427, -1074), (2137463671, -45), (0, 0)),
  (6, (27, -51), (1193739549554559, 970), (0, 0)),
  (6, (8415782744438587, 971), (9007199254740991, -47), (8415782744438587, 971)),
  (6, (4238078352303, -1067), (9007199254740991, -56), (0, 0)),
  (6, (9007199254740991, -52), (72985312708065, -52), (1, 0)),
  (7, (-92274439023873, -47), (9007199254740991, 971), (0, 1)),
  (7, (9007199254740991, -53), (-4624945674772061, -52), (1, 0)),
  (7, (-3958098950226729, -53), (1041132982112359, -52), (0, 1)),
  (7, (8475038409247201, -50), (-915, -47), (1, 3)),
  (7, (1434512315145315, 968), (5, -1), (1434512315145315, 968)),
  (8, (3419013963311529, 971), (-4669155596092101, -46), (0, 0)),
  (8, (8327975046320875, -57), (567624194824111, -53), (1, 0)),
  (8, (37474879299839, -1069), (5432467421298289, 969), (1, 0)),
  (8, (4242179880868713, -48), (-449, -50), (0, 0)),
  (8, (9007199254740991, -47), (-5, -1), (0, 0)),
  (9, (565825795051837, -1074), (1, -1074), (0, 0)),
  (9, (0, 0), (4453567885052759, 971), (1, 0)),
  (9, (1, -1074), (-3495313393480775, -56), (0, 0)),
  (9, (1, -1), (4579878563406447, -52), (1, 0)),
  (9, (4482995077497789, 970), (-6832336349433773, 968), (0, 0)),
  (10, (-16584640869, -47), (9007199254740991, -51), (0, 0)),
  (10, (248719144963523, -1073), (9007199254740991, -57), (0, 0)),
  (10, (3616342533626287, -1073), (2190109515158545, -51), (0, 0)),
  (10, (2012958130747567, -1074), (32491231, -52), (0, 0)),
  (10, (-9007199254740991, -50), (5, -1), (0, 0))] : List Row).all (arith .double .near) = true := by
  decide +kernel

example : ([
  (0, (-309867553229753, -54), (-4401315166314917, 968), (-8802630332629835, 967)),
  (0, (-4011806010135541, -52), (6312018757458943, -52), (1150106373661701, -51)),
  (0, (0, 0), (1204460939396583, -48), (1204460939396583, -48)),
  (0, (1122624998805435, -54), (6065545658280043, -51), (3102936891565361, -50)),
  (0, (1443450272143891, -50), (-9007199254740991, -50), (-1890937245649275, -48)),
  (1, (207253071578499, -52), (5794201579, -45), (206511413776387, -52)),
  (1, (-9007199254740991, -50), (667109, -50), (-2251799813852025, -48)),
  (1, (1851396207153157, -54), (-7122299265456801, -55), (5412545839881557, -54)),
  (1, (-9007199254740991, -57), (-8639851450931869, -48), (8622259264887453, -48)),
  (1, (-1, -1074), (7079190498987603, -56), (-1769797624746901, -54)),
  (2, (1, -1074), (536277128094851, -1073), (0, 0)),
  (2, (252925321823963, -45), (-3899060040880723, -1074), (-3503583256938865, -1071)),
  (2, (3471950183653775, -48), (4269903939163265, -49), (3291787679274155, -45)),
  (2, (-3734264589274219, -54), (2002314146002685, -50), (-3320530877824213, -53)),
  (2, (-1015228490250519, -45), (0, 0), (0, 1)),
  (3, (144963008479945, -46), (9007199254740991, -56), (144963008479945, -43)),
  (3, (-1235400808389363, -44), (-1, -1022), (9007199254740991, 971)),
  (3, (-5238054736501639, -52), (3580408274550011, -53), (-6588662395609023, -51)),
  (3, (9007199254740991, -50), (2997021177051623, -48), (3383761476054179, -52)),
  (3, (59725502245517, -46), (-3305978026042241, -54), (-5207144101524441, -50)),
  (4, (2151384182652851, -54), (-9007199254740991, -49), (6225423038903029, -54)),
  (4, (9007199254740991, -49), (5, -1), (9007199254740991, -51)),
  (4, (-423550885844055, -1074), (0, 0), (0, 2)),
  (4, (-4069105141574971, -45), (6789798644855735, -46), (0, 2)),
  (4, (460999, -50), (-3009914819267743, -48), (5972275111769179, -68)),
  (5, (247888816365625, -47), (-1136101874410973, -55), (1, 0)),
  (5, (-517937992392349, -50), (6835446799781819, 970), (-1, 0)),
  (5, (-181, -47), (430764770265397, -1072), (-1, 0)),
  (5, (2436999849330739, -56), (680229792876511, -45), (0, 0)),
  (5, (-1697317085117629, 972), (1, -51), (-1697317085117629, 972)),
  (6, (9007199254740991, -53), (9007199254740991, 971), (0, 0)),
  (6, (-6238779616134423, -50), (-1, 0), (-3, 1)),
  (6, (1176304734324727, -52), (9007199254740991, -57), (0, 0)),
  (6, (-15760483, -56), (9007199254740991, -55), (-1, 0)),
  (6, (3404542817550501, -48), (11915357167, -45), (3, 2)),
  (7, (9007199254740991, -57), (9007199254740991, -48), (1, 0)),
  (7, (0, 1), (-5, -1), (0, 1)),
  (7, (-8569353303066561, -55), (4176223723411435, -55), (0, 1)),
  (7, (-8078738565553193, -51), (-1, -1074), (-3, 0)),
  (7, (-172342752652595, -1074), (-130495269158735, -45), (0, 1)),
  (8, (-3009180614029183, -50), (7804638824860467, 969), (1, 0)),
  (8, (6537361014264905, 971), (4117957078925339, -51), (0, 0)),
  (8, (3057105191518605, -56), (2457064105567733, -47), (1, 0)),
  (8, (1, -1074), (-7453594668221667, -54), (0, 0)),
  (8, (357662977361051, -50), (362606372142977, -1073), (0, 0)),
  (9, (-4232827662768949, -54), (150044480981, -55), (1, 0)),
  (9, (4618599907479911, -49), (5369954799063799, -57), (0, 0)),
  (9, (9007199254740991, -50), (-1, 0), (0, 0)),
  (9, (1033923212948191, -1074), (-4771445727866943, -51), (0, 0)),
  (9, (-116287501198991, -45), (-865648085945487, -1074), (1, 0)),
  (10, (-956942999, -56), (-16030397, -56), (0, 0)),
  (10, (-561985789518231, -47), (-3173431749847171, -57), (0, 0)),
  (10, (535405381741941, 972), (-8365604958350185, -53), (0, 0)),
  (10, (1534608138944489, -53), (1808612407491105, 968), (0, 0)),
  (10, (22424702788345, -1074), (249162272780347, -53), (0, 0))] : List Row).all (arith .double .down) = true := by
  decide +kernel

example : ([
  (0, (-9007199254740991, -46), (-256717004469245, 971), (-256717004469245, 971)),
  (0, (2080415038926343, -49), (-318705795821, -46), (2077865392559775, -49)),
  (0, (-3726446966927401, -53), (-938414172170083, -47), (-7973119248226589, -50)),
  (0, (2088385713399717, -49), (-61, -53), (8353542853598853, -51)),
  (0, (-88308438888243, -53), (-3627, -56), (-706467511109571, -56)),
  (1, (-24802913223019, 970), (704850209088849, -47), (-24802913223019, 970)),
  (1, (6633, -47), (-3085109614576311, -1074), (7293060627038209, -87)),
  (1, (0, 0), (-1996333900757901, -49), (1996333900757901, -49)),
  (1, (-548514533938795, -1073), (1, 0), (-1, 0)),
  (1, (5, -1), (103673759760923, -41), (-98176201622043, -41)),
  (2, (-146970393708445, -49), (1, -51), (-146970393708445, -100)),
  (2, (-9007199254740991, -47), (70264694899323, -1072), (-8993880947113343, -1073)),
  (2, (2660496903, -45), (5958145426669875, -55), (7381489246747837, -69)),
  (2, (-456744311872809, 972), (-577929558668553, -1074), (3751183024079189, -56)),
  (2, (1, -1022), (-41115923034673, -1072), (0, 1)),
  (3, (-1, 0), (1441, -51), (-800084319643891, -9)),
  (3, (-9007199254740991, -51), (6263459164935773, -54), (-3238212155544507, -48)),
  (3, (-37066089, -54), (2154897, -51), (-1210403158251891, -49)),
  (3, (-17319532054755, -47), (7289297428467779, -56), (-342420877176567, -48)),
  (3, (-1413313917340245, -1074), (-1110678314861565, -1073), (5730732243822009, -53)),
  (4, (-9007199254740991, 971), (1238442544991815, -55), (0, 2)),
  (4, (149, -44), (87, -34), (6871679915311943, -71)),
  (4, (-869458880304885, -1073), (1975929857885851, 971), (0, 2)),
  (4, (-746005122369485, -47), (-14714195049, -52), (0, 2)),
  (4, (1, -1022), (13797, -50), (1, -511)),
  (5, (-4474407109881181, -50), (-194289076390171, -46), (-3, 0)),
  (5, (-4217797835629755, -55), (0, 0), (0, 1)),
  (5, (-1, -1022), (8317023617160307, 970), (0, 1)),
  (5, (9007199254740991, -56), (3478956094503591, -53), (1, 0)),
  (5, (1562589550266473, -1074), (-2986845084953929, -57), (1, 0)),
  (6, (-1226659714728533, 973), (-4532489309507923, -56), (-1226659714728533, 973)),
  (6, (-353362150086693, -49), (-2058025386328287, 969), (-1, 0)),
  (6, (-108596910806585, -1072), (9007199254740991, -52), (-1, 0)),
  (6, (19395512087, -55), (9007199254740991, -50), (0, 0)),
  (6, (-4520419183787747, -53), (-1471544187964191, -52), (-1, 0)),
  (7, (0, 0), (1, -1074), (0, 0)),
  (7, (-909249006464799, 970), (5220524397663035, -49), (-909249006464799, 970)),
  (7, (5031479747443959, -56), (7849487236354213, -52), (1, 0)),
  (7, (-66423880320759, -1070), (-7323, -50), (0, 1)),
  (7, (1981244647784725, -48), (1, -1074), (1, 3)),
  (8, (1558669219770999, -54), (-313308977873939, -49), (0, 0)),
  (8, (-263278291883593, -46), (-5, -1), (1, 0)),
  (8, (981590954780673, -52), (-6797533666777925, -53), (0, 0)),
  (8, (8793532514271685, -48), (115903, -55), (0, 0)),
  (8, (3434569344023511, -1074), (699915888714351, -1074), (0, 0)),
  (9, (1760282246316393, -48), (1, 0), (0, 0)),
  (9, (106473, -54), (-9007199254740991, -55), (0, 0)),
  (9, (-3402678159103827, 972), (-3625129132440811, -51), (1, 0)),
  (9, (8706089425676431, 968), (-1, -1074), (0, 0)),
  (9, (1112427595071055, -49), (-1, -1074), (0, 0)),
  (10, (-5863961230382389, -50), (-5, -1), (0, 0)),
  (10, (-82768027415505, -43), (-68463079172265, -1069), (0, 0)),
  (10, (57480021938791, -45), (1, 99999), (0, 0)),
  (10, (-1, -1022), (57590994629, -49), (0, 0)),
  (10, (605265703611839, -49), (-1, -1022), (0, 0))] : List Row).all (arith .double .up) = true := by
  decide +kernel

example : ([
  (0, (-4256948247861589, 968), (2004437679660865, -50), (-8513896495723177, 967)),
  (0, (5886402510016119, 970), (0, 1), (5886402510016119, 970)),
  (0, (-4080551824076065, -1074), (8052469088416069, -48), (2013117272104017, -46)),
  (0, (3889363419989257, -46), (756135429513121, 973), (756135429513121, 973)),
  (0, (5179801354807547, -47), (4642709242962719, -55), (2598968468893935, -46)),
  (1, (8132974176951475, -50), (-2803147325912211, 969), (2803147325912211, 969)),
  (1, (236040551204757, -1074), (-587703593091785, -56), (587703593091785, -56)),
  (1, (5175964256550361, -48), (2466447273337157, -56), (5166329696888887, -48)),
  (1, (800750566254131, -1071), (-486849370184633, -52), (486849370184633, -52)),
  (1, (-1799363230655829, 969), (1465799202878971, -1074), (-1799363230655829, 969)),
  (2, (-9007199254740991, -55), (803404847404475, -1074), (-100425605925559, -1073)),
  (2, (1598854988686275, -49), (-2316579474367623, -54), (-6579403065531335, -54)),
  (2, (-37905, -50), (-1160415, -54), (43985530575, -104)),
  (2, (51, -49), (-202524643915927, -52), (-2582189209928069, -99)),
  (2, (1053, -48), (-1499112312351441, -1074), (-701, -1071)),
  (3, (-5, -1), (9007199254740991, -52), (-5, -2)),
  (3, (8835112974558003, -46), (3869467807499817, -1073), (9007199254740991, 971)),
  (3, (-2154025390495963, -1074), (-1205, -53), (7321898754748103, -1033)),
  (3, (-83, -57), (4119022203374459, -52), (-6385920894814971, -103)),
  (3, (115526033265427, 970), (2437777587347567, -49), (6829604184612945, 962)),
  (4, (-1, 99999), (4343307007507009, -56), (0, 2)),
  (4, (50973322177387, -1074), (6105926192397695, -53), (3833022283380393, -566)),
  (4, (-9007199254740991, -46), (-1309606213690797, -47), (0, 2)),
  (4, (1027853044763927, -1074), (-9007199254740991, -49), (1075760032417831, -562)),
  (4, (71, -50), (5, -1), (4743500622330629, -74)),
  (5, (1022265702867755, -1074), (-8733070107178325, 970), (0, 0)),
  (5, (-9007199254740991, -50), (-410520353, -55), (-7, 0)),
  (5, (-9007199254740991, -49), (5332093837640503, 971), (-15, 0)),
  (5, (-9007199254740991, -56), (-3908771367311963, -1074), (0, 1)),
  (5, (544998084952907, -55), (49430995765555, -49), (0, 0)),
  (6, (2281306892598019, -52), (485034087388983, -1073), (0, 0)),
  (6, (400530008173853, -1073), (8251467189787265, -1074), (0, 0)),
  (6, (9007199254740991, -51), (-1, 0), (3, 0)),
  (6, (7178064652133285, 969), (5520797998368677, 971), (7178064652133285, 969)),
  (6, (622286618126769, -1074), (-3542386612655715, -53), (0, 0)),
  (7, (1683808687830883, -1074), (1532408166533817, -48), (1, 0)),
  (7, (-1, 0), (-11229082575197, -56), (-1, 0)),
  (7, (936713105624745, 970), (-682569381100403, -54), (936713105624745, 970)),
  (7, (9, -56), (-8600860207198979, -53), (1, 0)),
  (7, (-4323637313084713, -48), (2783289216581193, -48), (-15, 0)),
  (8, (-753844890665935, -46), (2446065001461367, 969), (1, 0)),
  (8, (877417434158017, -1073), (1929115362817919, -49), (1, 0)),
  (8, (-9007199254740991, -50), (148849887408759, -51), (1, 0)),
  (8, (-482842204476017, -1072), (-393579, -51), (0, 0)),
  (8, (226995407669663, -1073), (1686197999432399, -47), (1, 0)),
  (9, (-1216242831484699, -1074), (-9007199254740991, 971), (0, 0)),
  (9, (1727588147868505, -50), (-3243323984028645, -55), (0, 0)),
  (9, (-9007199254740991, -52), (1, -1), (1, 0)),
  (9, (-17121771049, -49), (-1, 99999), (0, 0)),
  (9, (-9007199254740991, -51), (1024284373308045, -48), (1, 0)),
  (10, (9007199254740991, -53), (-2266950646608343, -52), (0, 0)),
  (10, (392926754042385, -1073), (8849829, -46), (0, 0)),
  (10, (-3639315586773857, 972), (0, 1), (0, 0)),
  (10, (331606962911419, -47), (-1271228374120581, -54), (0, 0)),
  (10, (3928928625649211, -1074), (0, 2), (0, 0))] : List Row).all (arith .double .zero) = true := by
  decide +kernel

example : ([
  (0, (16777215, 104), (-1, 0), (16777215, 104)),
  (0, (-16777215, -19), (1653689, 106), (1653689, 106)),
  (0, (-5238633, -17), (-2292253, -23), (-10548899, -18)),
  (0, (-24335, -26), (-4109623, -19), (-4109813, -19)),
  (0, (-3632785, -26), (-16777215, -23), (-8615657, -22)),
  (1, (-3574477, -26), (-6549363, 104), (6549363, 104)),
  (1, (-13794607, -20), (1605441, -19), (-1062843, -16)),
  (1, (15177025, 101), (48831, -22), (15177025, 101)),
  (1, (-2448615, -149), (0, 2), (0, 2)),
  (1, (-3887, -18), (-11883, -12), (756625, -18)),
  (2, (16777215, -28), (1, -1), (16777215, -29)),
  (2, (16777215, -23), (157611, -15), (10087103, -20)),
  (2, (685001, 108), (5515469, 104), (1, 99999)),
  (2, (3, 0), (39, -25), (117, -25)),
  (2, (609683, 106), (407, -26), (15508811, 84)),
  (3, (0, 0), (16777215, -28), (0, 0)),
  (3, (3, 0), (-3232307, 102), (-8163915, -145)),
  (3, (408675, -146), (-749665, -149), (-4572995, -20)),
  (3, (16777215, -18), (16777215, 104), (1, -122)),
  (3, (1794393, -20), (-4710187, 104), (-6391449, -148)),
  (4, (85035, -147), (5, -1), (6756687, -88)),
  (4, (7652861, -24), (71303, -17), (5665547, -23)),
  (4, (-5, -1), (192577, -24), (0, 2)),
  (4, (-1321483, 103), (424115, -149), (0, 2)),
  (4, (-5915119, -149), (-613105, -25), (0, 2)),
  (5, (-267, -20), (-6053339, -21), (0, 1)),
  (5, (-2684609, -148), (-16777215, 104), (0, 1)),
  (5, (-16777215, -27), (4370629, -149), (0, 1)),
  (5, (1027099, -24), (-1888769, -16), (0, 0)),
  (5, (1588285, 104), (-341593, -149), (1588285, 104)),
  (6, (-5666399, -16), (-4155287, 103), (-87, 0)),
  (6, (1439173, -27), (-16777215, -21), (0, 0)),
  (6, (16777215, -25), (-181, -20), (0, 0)),
  (6, (3, -1), (11432165, -21), (1, 0)),
  (6, (1, 99999), (3, 0), (1, 99999)),
  (7, (-32297, -21), (-5145555, -25), (0, 1)),
  (7, (-3675291, -16), (-89093, 103), (-7, 3)),
  (7, (16777215, -19), (143221, -11), (1, 5)),
  (7, (-1714353, -24), (1, 99999), (0, 1)),
  (7, (16777215, -18), (-297, -17), (1, 6)),
  (8, (-3708003, -25), (-150539, -147), (1, 0)),
  (8, (-119, -18), (-16777215, 104), (0, 0)),
  (8, (-1933889, 101), (1805725, -148), (1, 0)),
  (8, (4772151, -23), (-7546301, -22), (0, 0)),
  (8, (-3069103, -24), (0, 1), (1, 0)),
  (9, (1278779, -19), (-574573, -13), (0, 0)),
  (9, (7592141, -26), (-10286595, 102), (0, 0)),
  (9, (1749841, -16), (516509, 104), (1, 0)),
  (9, (14757597, 103), (-16777215, -28), (0, 0)),
  (9, (-1008361, -149), (1, 99999), (1, 0)),
  (10, (1285323, -17), (-9637, -17), (0, 0)),
  (10, (255565, -13), (-145, -23), (0, 0)),
  (10, (638815, -25), (1323197, -149), (0, 0)),
  (10, (162145, -23), (-16777215, -26), (0, 0)),
  (10, (16777215, -17), (495841, -26), (0, 0))] : List Row).all (arith .single .near) = true := by
  decide +kernel

example : ([
  (0, (1, -149), (-293, -22), (-293, -22)),
  (0, (-7435575, -27), (6878043, 102), (13756085, 101)),
  (0, (-16777215, -24), (1562351, -18), (1300207, -18)),
  (0, (-2123815, 105), (5273593, 102), (-11716927, 102)),
  (0, (-323301, 104), (-1642213, -19), (-10345633, 99)),
  (1, (4671345, -23), (-2055115, -19), (1173537, -18)),
  (1, (16777215, -25), (-234029, -15), (16026431, -21)),
  (1, (5413, -16), (3, -22), (346429, -22)),
  (1, (16777215, -21), (-3310727, -148), (16777215, -21)),
  (1, (-14924437, -21), (6405977, -22), (-9063713, -20)),
  (2, (-1, -19), (-2080781, -22), (2080781, -41)),
  (2, (-1, 0), (-16777215, -25), (16777215, -25)),
  (2, (15243287, -149), (-2305411, -22), (-2094629, -147)),
  (2, (-3290757, -19), (1688469, -20), (-1324735, -17)),
  (2, (-6238763, -16), (10113939, -23), (-1880481, -14)),
  (3, (-10216231, -19), (2320477, -149), (-1, 99999)),
  (3, (7659275, -17), (5, -1), (1531855, -16)),
  (3, (-1, 99999), (-16777215, -20), (1, 99999)),
  (3, (0, 0), (948079, -149), (0, 0)),
  (3, (2614351, -24), (-5141421, -17), (-4265507, -30)),
  (4, (-16777215, -22), (-1, -149), (0, 2)),
  (4, (-325295, -149), (545663, -148), (0, 2)),
  (4, (-7577833, 104), (-2336573, -17), (0, 2)),
  (4, (-12826969, -25), (-1779, -22), (0, 2)),
  (4, (-63, -20), (344793, -21), (0, 2)),
  (5, (-2896463, -22), (-16777215, -21), (-1, 0)),
  (5, (-1792343, -22), (-187715, -143), (-1, 0)),
  (5, (3, -1), (16777215, -18), (1, 0)),
  (5, (2278227, -149), (11063851, -20), (0, 0)),
  (5, (16084023, -19), (-1388017, -21), (15, 1)),
  (6, (-1, 99999), (16777215, -17), (-1, 99999)),
  (6, (240817, 108), (13613295, 102), (240817, 108)),
  (6, (-16777215, -17), (-1, 0), (-1, 7)),
  (6, (-3316511, -26), (-13807831, -22), (-1, 0)),
  (6, (-15561741, 103), (16777215, 104), (-15561741, 103)),
  (7, (-3587363, -149), (-5176745, -22), (0, 1)),
  (7, (-16777215, -20), (10942383, -149), (-15, 0)),
  (7, (300283, -23), (321, -26), (1, 0)),
  (7, (-16777215, -26), (-16777215, -24), (0, 1)),
  (7, (-2617577, 103), (2002789, -18), (-2617577, 103)),
  (8, (-16777215, -27), (2470517, -27), (1, 0)),
  (8, (-8852421, 103), (144697, -16), (1, 0)),
  (8, (-4747185, 101), (-9527, -23), (1, 0)),
  (8, (0, 1), (-12915, -27), (0, 0)),
  (8, (-8808189, -20), (-1, -126), (1, 0)),
  (9, (-682801, 107), (-1, -20), (1, 0)),
  (9, (16777215, -27), (-29327, -16), (0, 0)),
  (9, (-1665, -18), (-942455, 104), (0, 0)),
  (9, (-6671361, -21), (-1, 0), (1, 0)),
  (9, (-12746645, -28), (-2507459, -148), (1, 0)),
  (10, (1, -1), (2504713, -23), (0, 0)),
  (10, (13924343, -21), (-16777215, -26), (0, 0)),
  (10, (-1130183, -15), (815289, -148), (0, 0)),
  (10, (16777215, -26), (-7611367, -20), (0, 0)),
  (10, (124209, -14), (16777215, -24), (0, 0))] : List Row).all (arith .single .down) = true := by
  decide +kernel

example : ([
  (0, (5963521, -149), (-1, 0), (-16777215, -24)),
  (0, (3589291, -148), (-1689043, 104), (-13512343, 101)),
  (0, (-132397, -24), (507909, -23), (883421, -24)),
  (0, (8063109, -24), (-3385503, 103), (-13542011, 101)),
  (0, (-2518241, -18), (15013963, -27), (-9955667, -20)),
  (1, (1378047, -23), (4145901, -25), (1366287, -25)),
  (1, (4400789, -26), (812295, -149), (4400789, -26)),
  (1, (1092637, -148), (89, -14), (-11665407, -31)),
  (1, (-707, -14), (0, 0), (-707, -14)),
  (1, (-619137, -18), (-594513, 103), (594513, 103)),
  (2, (10460809, -21), (15507259, 103), (1, 99999)),
  (2, (-1, -27), (1, -149), (0, 1)),
  (2, (-1, 0), (16777215, -21), (-16777215, -21)),
  (2, (-8258575, -24), (6746639, -149), (-3321029, -149)),
  (2, (1277, -25), (-16777215, -18), (-10461183, -32)),
  (3, (1, 0), (1620637, 103), (5427553, -146)),
  (3, (517703, -19), (5375379, -18), (3231629, -26)),
  (3, (355163, 105), (6734519, -149), (1, 99999)),
  (3, (0, 1), (-710801, -20), (0, 0)),
  (3, (-2942465, 104), (16777215, -23), (-2942465, 103)),
  (4, (-16777215, -18), (59, -23), (0, 2)),
  (4, (0, 2), (3454119, -18), (0, 2)),
  (4, (1, -1), (-4295915, -22), (2965821, -22)),
  (4, (-270727, -26), (282253, -21), (0, 2)),
  (4, (-13316579, -27), (1, -24), (0, 2)),
  (5, (967231, -23), (16777215, -25), (1, 0)),
  (5, (0, 1), (1, 0), (0, 1)),
  (5, (1, 99999), (-29, -25), (1, 99999)),
  (5, (-6788211, -17), (0, 0), (-51, 0)),
  (5, (-6947251, -26), (337, -28), (0, 1)),
  (6, (9817701, -28), (16777215, -22), (0, 0)),
  (6, (2377995, -19), (-1, -149), (1, 2)),
  (6, (1, -126), (-1501929, -18), (0, 0)),
  (6, (-3522533, -26), (2987607, -24), (-1, 0)),
  (6, (1603731, -24), (-16777215, -27), (0, 0)),
  (7, (-6146647, -21), (-803075, -17), (-1, 1)),
  (7, (-16777215, -19), (0, 2), (-31, 0)),
  (7, (-1, -149), (-16777215, 104), (0, 1)),
  (7, (2549315, 101), (5334255, -25), (2549315, 101)),
  (7, (3621163, -26), (-325919, 105), (1, 0)),
  (8, (-6426595, -19), (16389279, -19), (1, 0)),
  (8, (1288111, -24), (0, 1), (0, 0)),
  (8, (4356723, -21), (154989, -15), (1, 0)),
  (8, (-152613, -23), (-8216251, -24), (0, 0)),
  (8, (3631227, 105), (-5545137, -21), (0, 0)),
  (9, (-1815321, -148), (1, -126), (1, 0)),
  (9, (-8992293, 103), (-15350507, 103), (0, 0)),
  (9, (-4838985, -25), (16777215, -18), (1, 0)),
  (9, (14711117, -24), (-4376743, -23), (0, 0)),
  (9, (7, -19), (1, -149), (0, 0)),
  (10, (2163849, 104), (3599, -26), (0, 0)),
  (10, (4089553, -20), (15415315, -21), (0, 0)),
  (10, (5643147, 104), (-1539277, -20), (0, 0)),
  (10, (-2767927, 103), (6152927, 102), (0, 0)),
  (10, (2923067, -149), (1, -126), (0, 0))] : List Row).all (arith .single .up) = true := by
  decide +kernel

example : ([
  (0, (0, 0), (-5996673, -149), (-5996673, -149)),
  (0, (-11810563, -149), (251, -20), (16449535, -36)),
  (0, (1840401, 106), (-15816195, 102), (13630221, 102)),
  (0, (609093, -148), (4201637, -23), (4201637, -23)),
  (0, (-11712097, 101), (16777215, -20), (-366003, 106)),
  (1, (-3858875, -23), (-1370273, -149), (-15435499, -25)),
  (1, (-1, -126), (-1951215, -149), (-6437393, -149)),
  (1, (9594191, -23), (-2286557, -18), (10345501, -20)),
  (1, (6952763, -24), (0, 0), (6952763, -24)),
  (1, (-1445463, 105), (-443205, 107), (327357, 105)),
  (2, (5418957, -24), (16777215, -17), (10837913, -18)),
  (2, (-3779039, -23), (0, 0), (0, 1)),
  (2, (-3051381, -22), (-62059, -24), (5778981, -31)),
  (2, (16777215, -19), (5, -1), (10485759, -17)),
  (2, (9042397, 104), (4162407, -149), (8973631, -23)),
  (3, (-9379655, 104), (16777215, -23), (-9379655, 103)),
  (3, (-16777215, -26), (-9010511, -27), (1952407, -19)),
  (3, (8658975, -149), (-5, -23), (-1731795, -126)),
  (3, (1307805, -20), (-1, -126), (-1307805, 106)),
  (3, (-259081, -13), (1, -149), (-16777215, 104)),
  (4, (13839773, 104), (1, -1), (15237875, 40)),
  (4, (-16777215, -23), (-102147, -145), (0, 2)),
  (4, (-3582911, -15), (-35, -24), (0, 2)),
  (4, (16777215, -28), (284587, 106), (16777215, -26)),
  (4, (1, -1), (-7626799, -26), (11863283, -24)),
  (5, (-10905, -17), (-4896551, -23), (0, 1)),
  (5, (3530271, -18), (5719969, -27), (13, 0)),
  (5, (-1514829, -17), (-3819695, 106), (-11, 0)),
  (5, (-15866015, -19), (16777215, -17), (-15, 1)),
  (5, (1488343, -149), (3, -1), (0, 0)),
  (6, (-96845, -20), (14613541, -20), (-1, 0)),
  (6, (-1, -126), (-3161989, -18), (-1, 0)),
  (6, (-3667283, -24), (13, -16), (-1, 0)),
  (6, (-14207941, -23), (16777215, -26), (-1, 1)),
  (6, (7, -17), (-16777215, -26), (0, 0)),
  (7, (226033, -148), (-3917, -23), (1, 0)),
  (7, (-3183, -19), (-625017, -22), (0, 1)),
  (7, (780587, 104), (1, -149), (780587, 104)),
  (7, (-1177953, -15), (977689, -146), (-35, 0)),
  (7, (4771851, -25), (-16777215, -21), (1, 0)),
  (8, (-2540997, 103), (8313, -18), (1, 0)),
  (8, (458951, -15), (9320373, 103), (1, 0)),
  (8, (-5, -1), (2438575, 103), (1, 0)),
  (8, (342377, -148), (-16777215, -28), (0, 0)),
  (8, (3534197, -21), (16777215, -28), (0, 0)),
  (9, (-1, -149), (-4425263, -21), (0, 0)),
  (9, (7423185, -18), (35, -26), (0, 0)),
  (9, (-12032495, -23), (16777215, -25), (1, 0)),
  (9, (-3093295, -25), (16777215, -20), (1, 0)),
  (9, (-15463183, -27), (-15346369, 104), (0, 0)),
  (10, (-1628621, -149), (8669, -19), (0, 0)),
  (10, (5451099, -22), (-694371, -18), (0, 0)),
  (10, (-234173, 107), (7467891, -24), (0, 0)),
  (10, (-2531633, -25), (5628819, -20), (0, 0)),
  (10, (12433169, -19), (16777215, -27), (0, 0))] : List Row).all (arith .single .zero) = true := by
  decide +kernel

example : ([
  (0, (-8389639462245583413, 0), (0, 0), (-8193007287349203, 10)),
  (0, (9149643721672509296, 0), (0, 0), (4467599473472905, 11)),
  (0, (1364684570057842554, 0), (0, 0), (5330799101788447, 8)),
  (0, (-312946948079850685, 0), (0, 0), (-4889796063747667, 6)),
  (0, (-6937372180833385089, 0), (0, 0), (-6774777520345103, 10)),
  (0, (-7565043935085624131, 0), (0, 0), (-7387738217857055, 10))] : List Row).all (ofInt .double .near) = true := by
  decide +kernel

example : ([
  (0, (6697129825943622723, 0), (0, 0), (6540165845648069, 10)),
  (0, (7529179001253725947, 0), (0, 0), (7352713868411841, 10)),
  (0, (-6129879502967452729, 0), (0, 0), (-2993105226058327, 11)),
  (0, (-5970883295110188447, 0), (0, 0), (-1457735179470261, 12)),
  (0, (-5253337744919392705, 0), (0, 0), (-5130212641522845, 10)),
  (0, (-3378727347683097514, 0), (0, 0), (-3299538425471775, 10))] : List Row).all (ofInt .double .down) = true := by
  decide +kernel

example : ([
  (0, (7959405540571345961, 0), (0, 0), (3886428486607103, 11)),
  (0, (7551313601151053253, 0), (0, 0), (1843582422156019, 12)),
  (0, (-5233123891555951126, 0), (0, 0), (-638809068793451, 13)),
  (0, (6973278971195082031, 0), (0, 0), (3404921372653849, 11)),
  (0, (-6306435319526143378, 0), (0, 0), (-6158628241724749, 10)),
  (0, (1475760207673665844, 0), (0, 0), (2882344155612629, 9))] : List Row).all (ofInt .double .up) = true := by
  decide +kernel

example : ([
  (0, (5614514220459564788, 0), (0, 0), (5482924043417543, 10)),
  (0, (-5181319889472958533, 0), (0, 0), (-1264970676140859, 12)),
  (0, (-607020747525344008, 0), (0, 0), (-2371174795020875, 8)),
  (0, (-7861716089717244994, 0), (0, 0), (-7677457118864497, 10)),
  (0, (8597078190294243817, 0), (0, 0), (4197792085104611, 11)),
  (0, (-3116663363353314628, 0), (0, 0), (-3043616565774721, 10))] : List Row).all (ofInt .double .zero) = true := by
  decide +kernel

example : ([
  (0, (-1497711501, 0), (0, 0), (-11700871, 7)),
  (0, (-1273334502, 0), (0, 0), (-4973963, 8)),
  (0, (377965166, 0), (0, 0), (11811411, 5)),
  (0, (1499243333, 0), (0, 0), (11712839, 7)),
  (0, (2133355623, 0), (0, 0), (16666841, 7)),
  (0, (-624445236, 0), (0, 0), (-9756957, 6))] : List Row).all (ofInt .single .near) = true := by
  decide +kernel

example : ([
  (0, (2084956759, 0), (0, 0), (4072181, 9)),
  (0, (662795101, 0), (0, 0), (10356173, 6)),
  (0, (1633226712, 0), (0, 0), (12759583, 7)),
  (0, (1797578011, 0), (0, 0), (7021789, 8)),
  (0, (1156426982, 0), (0, 0), (9034585, 7)),
  (0, (1048592789, 0), (0, 0), (8192131, 7))] : List Row).all (ofInt .single .down) = true := by
  decide +kernel

example : ([
  (0, (-2043364835, 0), (0, 0), (-15963787, 7)),
  (0, (-1386273981, 0), (0, 0), (-10830265, 7)),
  (0, (-1223297276, 0), (0, 0), (-9557009, 7)),
  (0, (-2074898099, 0), (0, 0), (-16210141, 7)),
  (0, (1562992021, 0), (0, 0), (3052719, 9)),
  (0, (255024333, 0), (0, 0), (15939021, 4))] : List Row).all (ofInt .single .up) = true := by
  decide +kernel

example : ([
  (0, (-1475239691, 0), (0, 0), (-5762655, 8)),
  (0, (1739736758, 0), (0, 0), (13591693, 7)),
  (0, (2054054960, 0), (0, 0), (2005913, 10)),
  (0, (-694109811, 0), (0, 0), (-10845465, 6)),
  (0, (-654165348, 0), (0, 0), (-10221333, 6)),
  (0, (-285506758, 0), (0, 0), (-4461043, 6))] : List Row).all (ofInt .single .zero) = true := by
  decide +kernel

example : ([
  (0, (4018691690486311701, 16319), (829212069162166989, -56), (4018691690486311701, 16319)),
  (0, (11209101032595415813, -61), (1, 0), (13514944041809109765, -61)),
  (0, (1, 99999), (0, 0), (1, 99999)),
  (0, (6834136557540385887, 16318), (314490442311, -63), (6834136557540385887, 16318)),
  (0, (-173453, -62), (-424624424189978155, -57), (-13587981574079474413, -62)),
  (1, (6030008080834704769, -16444), (-4111994806237464349, -57), (4111994806237464349, -57)),
  (1, (18216599862701255613, -64), (-5866985032414049013, -68), (4645821606806783419, -62)),
  (1, (-17094528672759244419, 16318), (-627990243087489153, -63), (-17094528672759244419, 16318)),
  (1, (18446744073709551615, -68), (-18331916263194328415, -67), (13777644150024552111, -66)),
  (1, (1188566414721160635, -60), (-11057223406794502327, -62), (15811489065679144867, -62)),
  (2, (-3082194698614660243, -16444), (18446744073709551615, -58), (-12328778794458640971, -16440)),
  (2, (6760195536455301309, -64), (303349772006816449, -16441), (1778701990127693849, -16445)),
  (2, (18446744073709551615, -60), (6791844051351445455, 16320), (1, 99999)),
  (2, (295189203, -64), (3754904859072258719, 16321), (8258278464454169353, 16284)),
  (2, (-2512279782272687237, -16443), (-553052078991443229, -16445), (0, 0)),
  (3, (-5255936517360714363, -64), (14617187102115533427, -57), (-3316469684833724697, -70)),
  (3, (-2433491260342888931, -16445), (-2302740562925120779, -65), (2436769864997916041, -16441)),
  (3, (11392241836254656929, -64), (-80904586897960825, -16445), (-1, 99999)),
  (3, (-510774256568654659, 16325), (-345766962726235943, -16442), (1, 99999)),
  (3, (-69009059598476577, -61), (-6720347179053991847, 16320), (189423615664996541, -16445)),
  (4, (-7, -62), (463983457637797521, -16442), (0, 2)),
  (4, (562599024961901, -59), (425143389239387731, -16444), (18440993565511287069, -69)),
  (4, (528233522686975143, 16324), (-18446744073709551615, -65), (12486273169627951851, 8128)),
  (4, (1, -1), (-97515724969883, -61), (3260954456333195553, -62)),
  (4, (-66748696777, -63), (-150565685422261781, -16445), (0, 2)),
  (5, (18446744073709551615, -68), (16614029222334349885, -67), (0, 0)),
  (5, (-10512068935940425511, -67), (-4835952189745799117, -64), (0, 1)),
  (5, (-4562738740141838077, 16320), (18446744073709551615, -58), (-4562738740141838077, 16320)),
  (5, (-980020246834614523, -61), (-18446744073709551615, -64), (0, 1)),
  (5, (-18446744073709551615, -59), (-8414093159712309847, -64), (-1, 5)),
  (6, (-13636318405944939521, 16319), (18446744073709551615, -65), (-13636318405944939521, 16319)),
  (6, (18446744073709551615, -66), (8427283120709380387, -59), (0, 0)),
  (6, (443290941095, -61), (3436989, -57), (0, 0)),
  (6, (-2268797318025629247, 16319), (-7664263211654653277, -57), (-2268797318025629247, 16319)),
  (6, (680369917575456967, -16443), (-1621480229214559881, -67), (0, 0)),
  (7, (-18446744073709551615, -63), (1, -16382), (-1, 0)),
  (7, (4113644140044250821, -68), (-5914299982477138099, -67), (1, 0)),
  (7, (11398359327080843787, 16317), (0, 1), (11398359327080843787, 16317)),
  (7, (1857892172761800819, -55), (6417436576598895249, -63), (13, 2)),
  (7, (-65944168223607, -61), (-4346290955583878371, -63), (0, 1)),
  (8, (-12582719961049539341, 16317), (2329258495724153567, -60), (1, 0)),
  (8, (-18446744073709551615, -67), (18446744073709551615, -60), (1, 0)),
  (8, (-5, -1), (231, -61), (1, 0)),
  (8, (-711805129943045945, -59), (-2213598687450881563, -56), (0, 0)),
  (8, (-600913408382062927, -60), (1169229860542764401, -54), (1, 0)),
  (9, (-13127024486953588809, 16319), (1, 99999), (1, 0)),
  (9, (1791041349020982763, -64), (731721509, -58), (0, 0)),
  (9, (1, -1), (12731156854812378875, 16318), (1, 0)),
  (9, (-10626264250569176137, -67), (2113933161867342665, -61), (1, 0)),
  (9, (18446744073709551615, -63), (-2303178049937307301, -16445), (0, 0)),
  (10, (-18446744073709551615, -59), (-1550981440119905967, -61), (0, 0)),
  (10, (3251551217166078597, -16445), (30199, -64), (0, 0)),
  (10, (-18446744073709551615, -67), (18446744073709551615, -66), (0, 0)),
  (10, (187018713, -59), (3795758813480593831, -16445), (0, 0)),
  (10, (18446744073709551615, -64), (5873565383897363393, -58), (0, 0))] : List Row).all (arith .extended .near) = true := by
  decide +kernel

example : ([
  (0, (2133034039843686549, -62), (-6983167455529914155, 16319), (-6983167455529914155, 16319)),
  (0, (-18446744073709551615, -64), (3014492243488359, -59), (-18350280321917924127, -64)),
  (0, (18446744073709551615, -65), (-381153291100964195, 16324), (-381153291100964195, 16324)),
  (0, (-1, -16382), (10673177582155486577, -63), (667073598884717911, -59)),
  (0, (18446744073709551615, -62), (1114335168886908705, -63), (9501955829076502983, -61)),
  (1, (1, 0), (18446744073709551615, -65), (1, -1)),
  (1, (6409516620222163251, -65), (-11767, -62), (6409516620222257387, -65)),
  (1, (227977061428025379, 16325), (2869220740502324673, -60), (14590531931393624255, 16319)),
  (1, (1, 99999), (-9020479299890585101, -63), (1, 99999)),
  (1, (926893323, -65), (-322186722903142227, -16440), (926893323, -65)),
  (2, (-17743899549273980171, 16319), (-7815138525443699875, -16445), (7517371759755113557, -62)),
  (2, (5, -1), (9600361344312640403, -60), (12000451680390800503, -59)),
  (2, (-2578051819662734651, -57), (7568408475278988725, -62), (-16923744733426133277, -59)),
  (2, (16701447816256191397, -66), (-3810310051974191707, 16320), (-13799225325080610733, 16316)),
  (2, (1764203493458391543, -56), (2359998529178919143, -59), (7222551809637550275, -56)),
  (3, (-3671236167, -63), (-18446744073709551615, -67), (3671236167, -60)),
  (3, (2185965142584292395, 16319), (-10400462932994652303, -58), (-15508517187779369957, 16311)),
  (3, (-7823921703959729893, -16445), (211263536257418991, -59), (-2668576811293744797, -16442)),
  (3, (4535085170551679709, -66), (-1283071385500126605, -66), (-16300253524287252927, -62)),
  (3, (2157507956174791341, -61), (10060786152207052585, 16317), (7911707197119533699, -16443)),
  (4, (-13867097863539436173, -16445), (-17460412424225745327, -68), (0, 2)),
  (4, (-376047021633847, -56), (18446744073709551615, -61), (0, 2)),
  (4, (-6084690097238544919, -61), (-4415058630596680083, -60), (0, 2)),
  (4, (585681720317129497, 16321), (15963056720268629819, -61), (9296847122907861881, 8127)),
  (4, (3937632112633486271, -16445), (7260678209283632983, -62), (94163470930022189, -8248)),
  (5, (11422220818478323969, 16317), (-9186336316170574147, -56), (11422220818478323969, 16317)),
  (5, (-18446744073709551615, -62), (18446744073709551615, -67), (-1, 2)),
  (5, (-479789146483456035, -61), (9085791620814310979, -61), (-1, 0)),
  (5, (-667582023904353127, -65), (-8268883081516095745, 16317), (-1, 0)),
  (5, (4530818523978677731, -64), (18446744073709551615, 16320), (0, 0)),
  (6, (-14670084746066789253, -58), (-15732323984283103871, -61), (-51, 0)),
  (6, (18446744073709551615, -61), (5093911747059358351, -58), (7, 0)),
  (6, (-3543997396005, -53), (18446744073709551615, -64), (-1, 0)),
  (6, (-11112951222450502369, -64), (800316017225, -58), (-1, 0)),
  (6, (15319135803368798949, -16445), (1380868602565, -61), (0, 0)),
  (7, (-1116206725327577805, -16444), (-36281729142833289, -58), (0, 1)),
  (7, (-18446744073709551615, -68), (1634027408871487, -61), (0, 1)),
  (7, (-9230468360011794303, -67), (-7647306152504589363, -63), (0, 1)),
  (7, (-5693459227, -65), (12448458127538262563, -57), (0, 1)),
  (7, (-6989259504679553487, 16320), (-18446744073709551615, -61), (-6989259504679553487, 16320)),
  (8, (-5566721871423879329, -16445), (3836231, -61), (1, 0)),
  (8, (-116028872042759331, -54), (811087563696263681, -65), (1, 0)),
  (8, (1996853967021714999, -65), (-5039048152781, -63), (0, 0)),
  (8, (-14553656919871735979, -66), (-3361592940857294997, -16445), (1, 0)),
  (8, (-18446744073709551615, -60), (8903879512325164721, -16445), (1, 0)),
  (9, (-47, -61), (-331803, -60), (0, 0)),
  (9, (-18446744073709551615, -61), (3864866242279729811, -58), (1, 0)),
  (9, (253878936080523, -59), (1167072947244582373, 16318), (1, 0)),
  (9, (3, -1), (3839992199171179947, -16445), (0, 0)),
  (9, (-86575, -68), (30197927791896651, -16441), (1, 0)),
  (10, (-2238848773029086183, -66), (6859098003128968119, -59), (0, 0)),
  (10, (-17452452562975557097, 16318), (3, 0), (0, 0)),
  (10, (-13419231662303622789, -16445), (18446744073709551615, -65), (0, 0)),
  (10, (18446744073709551615, -62), (3, 0), (0, 0)),
  (10, (-13853842199860917333, 16319), (-1438821808452406151, -63), (0, 0))] : List Row).all (arith .extended .down) = true := by
  decide +kernel

example : ([
  (0, (5, -1), (17134216953512373231, 16320), (1070888559594523327, 16324)),
  (0, (4598142065295345885, 16320), (2219817724593055823, 16320), (1704489947472100427, 16322)),
  (0, (-13784980815056582461, -61), (-16989910200807887081, -16445), (-13784980815056582461, -61)),
  (0, (3029447602876081369, -16445), (297993880694364481, -63), (9535804182219663393, -68)),
  (0, (-14971499700991147833, -61), (-18446744073709551615, -65), (-2015552650699749351, -58)),
  (1, (-168341689856691395, -57), (-17265147727213368541, 16320), (17265147727213368541, 16320)),
  (1, (-598793987903692107, -16445), (-15397605918470672777, -58), (15397605918470672777, -58)),
  (1, (16013779689433802063, -59), (-1491546311, -66), (16013779689445454769, -59)),
  (1, (121743788323852229, -62), (18446744073709551615, -62), (-9162500142692849693, -61)),
  (1, (-159335609156558791, -62), (3209942040542064903, -59), (-12919435966746539007, -61)),
  (2, (-1007881501210231783, -16445), (67497, -58), (-118011, -16444)),
  (2, (-560937610016320607, -16442), (1624293331028163745, -16445), (0, 1)),
  (2, (-6538856420831805169, 16320), (-6849983310690963589, -59), (1, 99999)),
  (2, (-5995425278405795001, -65), (-4538339206512019101, 16321), (11800141419853548251, 16317)),
  (2, (18446744073709551615, -67), (18446744073709551615, -59), (18446744073709551615, -62)),
  (3, (0, 0), (-15965344620102869151, 16318), (0, 1)),
  (3, (-18446744073709551615, -65), (-2027018566931887047, -66), (10492083436980822067, -59)),
  (3, (-187332722537, -59), (-1, -16445), (1, 99999)),
  (3, (3856754883506456745, 16321), (3509, -66), (1, 99999)),
  (3, (7917063988775433075, -64), (837271094492564979, -16445), (1, 99999)),
  (4, (776375793555156793, -16443), (-3381590578016637443, -16443), (10703870540597971515, -8255)),
  (4, (-4168601042503744337, 16317), (-6492428041607, -63), (0, 2)),
  (4, (9094311601067077533, 16321), (-1, 99999), (18317228973371061535, 8128)),
  (4, (1137130361627105669, -16445), (561377647329452649, -55), (12954181644358708257, -8256)),
  (4, (1, 0), (-4021091591476877117, -59), (1, 0)),
  (5, (18446744073709551615, -65), (-12377043335020494553, 16320), (1, 0)),
  (5, (-2381519409793123869, -65), (18446744073709551615, -61), (0, 1)),
  (5, (731581993240412903, -16444), (18446744073709551615, -59), (1, 0)),
  (5, (-8363272591847527345, -61), (119, -66), (-3, 0)),
  (5, (-10470935474699893367, -63), (1, -1), (-1, 0)),
  (6, (12534729714049727099, 16317), (18446744073709551615, -59), (12534729714049727099, 16317)),
  (6, (17543393024921601783, -64), (-399986577905402537, -53), (0, 0)),
  (6, (18446744073709551615, -68), (-18446744073709551615, -59), (0, 0)),
  (6, (-18446744073709551615, -58), (-3703108754705450617, 16319), (-1, 6)),
  (6, (14743900072713170883, -16445), (45, -64), (0, 0)),
  (7, (18360309194888656527, 16318), (3908487427755523375, -67), (18360309194888656527, 16318)),
  (7, (-16155858592671783059, -58), (-5846033928080021081, -60), (-7, 3)),
  (7, (3, -1), (11811170446450366563, 16317), (1, 1)),
  (7, (-2553879489, -59), (1016690799116626351, -62), (0, 1)),
  (7, (-2905122723312729183, 16320), (1729679739071978781, 16317), (-2905122723312729183, 16320)),
  (8, (1316475012991284025, 16319), (1, -61), (0, 0)),
  (8, (-3076314203959875395, -64), (-598863291566689949, -60), (0, 0)),
  (8, (0, 2), (280568159751080917, 16322), (0, 0)),
  (8, (-3260860088533306061, -64), (-8285224542901345413, -63), (0, 0)),
  (8, (12560138323635513159, -59), (-2135103128337239411, -60), (0, 0)),
  (9, (-5, -1), (0, 2), (0, 0)),
  (9, (-2363141308455722457, -64), (18446744073709551615, -62), (1, 0)),
  (9, (-1674380434141155979, -64), (-18446744073709551615, -64), (0, 0)),
  (9, (-18446744073709551615, -63), (9121292688802270873, -16445), (1, 0)),
  (9, (-2576524714848140117, -16445), (3909008386108957531, -64), (1, 0)),
  (10, (-18446744073709551615, -62), (-3203600527158559, -64), (0, 0)),
  (10, (-6678286936211363507, -16444), (3, -1), (0, 0)),
  (10, (1267369179746345731, 16319), (10173238279650172033, -68), (0, 0)),
  (10, (-10387112635968393957, 16320), (1121619533693989161, 16319), (0, 0)),
  (10, (0, 1), (9116430991178145215, -16445), (0, 0))] : List Row).all (arith .extended .up) = true := by
  decide +kernel

example : ([
  (0, (-10162231081859227345, -64), (5186033280399946419, -16444), (-635139442616201709, -60)),
  (0, (-1, 0), (18446744073709551615, -65), (-1, -1)),
  (0, (6053355440998953551, -56), (10848872890554069863, -63), (12276224520912814443, -57)),
  (0, (16282041214010219213, -68), (3665611097302594497, -60), (14916851283179287663, -62)),
  (0, (-1, 0), (-1, 99999), (-1, 99999)),
  (1, (-1821609199044563485, 16319), (8926448100182224159, -61), (-1821609199044563485, 16319)),
  (1, (9840882149886885793, -62), (18446744073709551615, 16320), (-9223372036854775807, 16321)),
  (1, (17755401777952350813, -63), (117513782389172249, -56), (2713637632138302941, -63)),
  (1, (1, -1), (13508369, -63), (4611686018413879535, -63)),
  (1, (4116962404732461923, -60), (8727416856987369133, -68), (16331483730539420049, -62)),
  (2, (3, -1), (18446744073709551615, -65), (13835058055282163711, -64)),
  (2, (43476043061, -61), (4008572825, -65), (5446152648526700541, -121)),
  (2, (-2784970444073877533, -61), (-357999559823204457, -65), (13836406924359645509, -70)),
  (2, (62435, -63), (-8194337212464038765, 16317), (-15613203242803718881, 16269)),
  (2, (-18446744073709551615, -68), (8205276572379033459, -59), (-16410553144758066917, -64)),
  (3, (11833516166723615607, -67), (-11465042968144426049, 16319), (-594987533044393199, -16445)),
  (3, (-588610005001474729, -16444), (-18446744073709551615, -60), (73576250625184341, -16445)),
  (3, (1539618632867015285, -60), (-25170068019895, -61), (-8608719660332149329, -46)),
  (3, (1, -16382), (3, -1), (6148914691236517205, -16445)),
  (3, (-1, 99999), (11225154296222998381, -63), (-1, 99999)),
  (4, (1, 0), (-3210154263810951503, -63), (1, 0)),
  (4, (929625873029, -55), (2228440973000933257, -63), (11993858270893410653, -71)),
  (4, (5593043194304457, -16438), (-80633234603494171, -16445), (5139299535736902763, -8255)),
  (4, (916402986772709977, 16319), (-9237061928808499855, -64), (363411046601537911, 8131)),
  (4, (17793293019755021755, -60), (82333748816069, -59), (18117072681974411047, -62)),
  (5, (18446744073709551615, -65), (-16929933329624986851, 16318), (0, 0)),
  (5, (-7819328113073866357, -62), (-2493122795257404769, 16319), (-1, 0)),
  (5, (-2801428554461, -64), (5849831202266414213, -16444), (0, 1)),
  (5, (631720066635315019, 16323), (-1, 0), (631720066635315019, 16323)),
  (5, (975667716178700575, -61), (-2941757150703926129, -65), (0, 0)),
  (6, (462977818978532569, 16323), (1, -62), (462977818978532569, 16323)),
  (6, (18446744073709551615, -67), (185942587452167379, -16444), (0, 0)),
  (6, (1, 99999), (1357675783744089495, -63), (1, 99999)),
  (6, (1, -16445), (-3940192997951727, -60), (0, 0)),
  (6, (5, -1), (-408100992185543223, -16444), (1, 1)),
  (7, (-2000582028745266671, -61), (-18446744073709551615, -67), (0, 1)),
  (7, (2922307026261001165, -64), (4319779967883423175, -60), (1, 0)),
  (7, (414992386321, -68), (-7552412213938704121, -16445), (1, 0)),
  (7, (-1, -58), (18446744073709551615, -62), (0, 1)),
  (7, (3871752545784359497, -60), (519483968886718263, 16319), (1, 2)),
  (8, (-5880882868654690363, -57), (18446744073709551615, -63), (1, 0)),
  (8, (2309711672094804539, -59), (-1, -16382), (0, 0)),
  (8, (-4592922276735452873, -60), (-5951598727182754369, -63), (1, 0)),
  (8, (-18446744073709551615, -62), (-18446744073709551615, -65), (1, 0)),
  (8, (668599214190193457, -59), (2894392369654630255, -67), (0, 0)),
  (9, (1032852358151289, -66), (18446744073709551615, -66), (1, 0)),
  (9, (198148116128884117, -16443), (-1739480947616322631, -60), (0, 0)),
  (9, (18446744073709551615, 16320), (-18446744073709551615, -66), (0, 0)),
  (9, (12555547745225540639, -57), (-18446744073709551615, -64), (0, 0)),
  (9, (-2077719820450921875, -60), (14512599818155266771, 16318), (1, 0)),
  (10, (2080357040797984421, 16321), (18446744073709551615, -66), (0, 0)),
  (10, (2125315991973465855, -63), (18446744073709551615, -68), (0, 0)),
  (10, (2099, -64), (18446744073709551615, -57), (0, 0)),
  (10, (17409375047995883659, -64), (-1, 99999), (0, 0)),
  (10, (9089970921823828115, -61), (1, -1), (0, 0))] : List Row).all (arith .extended .zero) = true := by
  decide +kernel

end BI.Suite.Hardware
