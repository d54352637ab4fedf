import Verif.Lemmas.KalmanSimRun

/-
The covariance and the gain of the estimator of example/desktop/kalman-sim.e.cpp in `double` until they no longer change
(for C151), evaluated one update at a time from the literal covariance before it.
-/

namespace Verif
open KalmanSim Ieee StillRun

namespace SettledRun

set_option Elab.async false

/-- The part of `update` that computes the gain and the covariance. -/
def cov {T : Type} [CNum T] (k : Kalman T .one .one) (P : Mat T 2 2) : Res (Mat T 2 1 × Mat T 2 2) := do
  let Pm ← Kalman.predictCov k.A P k.Q
  let K ← Kalman.gain .one Pm k.H k.R
  .ok (K, ← Kalman.correctCov .one K k.H Pm)

/-- The four elements of the covariance and the two of the gain after each update, in units of `2 ^ (-63)`. -/
def states : List (Int × Int × Int × Int × Int × Int) :=
  [(921415787897580288, 737132630318064128, 737132630318064128, 737280056844127744, 9214157878975804, 7371326303180641),
   (3213956381227945472, 1653099629886792448, 1653099629886792448, 1103241737069904256, 32139563812279452, 16530996298867924),
   (7651622946407366656, 2916412133609701376, 2916412133609700864, 1462877838818942720, 76516229464073664, 29164121336097012),
   (14798259503257214976, 4490535096815406080, 4490535096815405056, 1809593392312777728, 147982595032572128, 44905350968154048),
   (24985472166148206592, 6308932744571480064, 6308932744571479040, 2134172609249346048, 249854721661482080, 63089327445714792),
   (38180956828226494464, 8270426858033682432, 8270426858033682432, 2425745643587112960, 381809568282264896, 82704268580336816),
   (53895087480397881344, 10244849648750628864, 10244849648750630912, 2673823944793010688, 538950874803978816, 102448496487506304),
   (71195542816970752000, 12091704831972820992, 12091704831972823040, 2870978578083411968, 711955428169707392, 120917048319728208),
   (88866925372855812096, 13687727205200191488, 13687727205200193536, 3015125748562941952, 888669253728558080, 136877272052001920),
   (105675419576648122368, 14952480662259906560, 14952480662259906560, 3110291632508699648, 1056754195766481152, 149524806622599072),
   (120631619808803061760, 15860700325040560128, 15860700325040560128, 3165443225129761280, 1206316198088030720, 158607003250405600),
   (133147005864006565888, 16437400364645251072, 16437400364645249024, 3192016871639955456, 1331470058640065792, 164374003646452512),
   (143047899390451597312, 16740892965870182400, 16740892965870178304, 3201319591155690496, 1430478993904515840, 167408929658701792),
   (150484137073624481792, 16842906927005261824, 16842906927005257728, 3202718828835621376, 1504841370736244992, 168429069270052576),
   (155798816515228565504, 16812878141795893248, 16812878141795889152, 3202888262757482496, 1557988165152285440, 168128781417958880),
   (159411187558777421824, 16708947520315498496, 16708947520315496448, 3205878188449366016, 1594111875587774208, 167089475203154976),
   (161735508471738073088, 16574801906529445888, 16574801906529445888, 3213620004000280576, 1617355084717380864, 165748019065294464),
   (163136372943156150272, 16440228288760492032, 16440228288760494080, 3226547495542760448, 1631363729431561728, 164402282887604928),
   (163911122243300229120, 16323423310653970432, 16323423310653972480, 3244157237891820032, 1639111222433001984, 163234233106539712),
   (164288735824843079680, 16233769662067652608, 16233769662067654656, 3265442478723878912, 1642887358248430848, 162337696620676544),
   (164437037172735377408, 16174414273666471936, 16174414273666473984, 3289197759169723904, 1644370371727353856, 161744142736664768),
   (164473055584893075456, 16144393777625364480, 16144393777625368576, 3314216846368294912, 1644730555848930560, 161443937776253664),
   (164473728380828647424, 16140269901650681856, 16140269901650683904, 3339411303627675136, 1644737283808286720, 161402699016506848),
   (164485624061412999168, 16157329503567398912, 16157329503567403008, 3363873330910087168, 1644856240614129664, 161573295035674016),
   (164533202311595229184, 16190429839154831360, 16190429839154835456, 3386900803738561536, 1645332023115952384, 161904298391548352),
   (164625541873175592960, 16234566714336894976, 16234566714336899072, 3407997358728681984, 1646255418731755520, 162345667143368960),
   (164761647980667600896, 16285230994724040704, 16285230994724044800, 3426856598830331904, 1647616479806675968, 162852309947240448),
   (164934514793900802048, 16338606121964967936, 16338606121964976128, 3443336895809477120, 1649345147939008000, 163386061219649760),
   (165134130311449739264, 16391648632432060416, 16391648632432068608, 3457431504789961728, 1651341303114497536, 163916486324320672),
   (165349603654332088320, 16442085433128040448, 16442085433128046592, 3469237453928724480, 1653496036543320576, 164420854331280448),
   (165570580881139236864, 16488355146231967744, 16488355146231971840, 3478925710041949184, 1655705808811392512, 164883551462319712),
   (165788100075090280448, 16529515506223396864, 16529515506223398912, 3486714326763988992, 1657881000750903040, 165295155062234016),
   (165995020137887137792, 16565134122468661248, 16565134122468659200, 3492845606291377664, 1659950201378871296, 165651341224686592),
   (166186140448618938368, 16595175699917611008, 16595175699917611008, 3497567739942096896, 1661861404486189312, 165951756999176128),
   (166358110423405559808, 16619895016860581888, 16619895016860581888, 3501120942434180608, 1663581104234055424, 166198950168605824),
   (166509209602366668800, 16639741653929377792, 16639741653929377792, 3503727764512537088, 1665092096023666432, 166397416539293760),
   (166639061026290761728, 16655279725454145536, 16655279725454143488, 3505587054458870784, 1666390610262907392, 166552797254541440),
   (166748324196347183104, 16667123721331601408, 16667123721331599360, 3506870927980170752, 1667483241963471360, 166671237213315968),
   (166838399506574278656, 16675890013429835776, 16675890013429831680, 3507724078283073536, 1668383995065743104, 166758900134298336),
   (166911164092430811136, 16682162559078445056, 16682162559078440960, 3508264791352058880, 1669111640924307968, 166821625590784384),
   (166968749655074045952, 16686470759217752064, 16686470759217750016, 3508587103804375552, 1669687496550740736, 166864707592177504),
   (167013365871050588160, 16689277201183782912, 16689277201183780864, 3508763633491469312, 1670133658710505728, 166892772011837792),
   (167047168193187971072, 16690973038107834368, 16690973038107830272, 3508848711754287104, 1670471681931879680, 166909730381078304),
   (167072165821228711936, 16691878941732124672, 16691878941732122624, 3508881540786962944, 1670721658212287232, 166918789417321184),
   (167090163981208485888, 16692249842267152384, 16692249842267148288, 3508889183690617856, 1670901639812084992, 166922498422671488),
   (167102734035451412480, 16692281984126205952, 16692281984126201856, 3508889265397656576, 1671027340354513920, 166922819841262016),
   (167111205033472327680, 16692121142346694656, 16692121142346690560, 3508892318878511104, 1671112050334723328, 166921211423466912),
   (167116670849880195072, 16691871137120292864, 16691871137120288768, 3508903753565429760, 1671166708498801664, 166918711371202880),
   (167120007839410618368, 16691602039539505152, 16691602039539501056, 3508925453270455808, 1671200078394106368, 166916020395395040),
   (167121898825745858560, 16691357674597971968, 16691357674597967872, 3508957030973405184, 1671218988257458432, 166913576745979648),
   (167122860129149878272, 16691162197131589632, 16691162197131587584, 3508996779737268736, 1671228601291498496, 166911621971315840),
   (167123269163543822336, 16691025645594195968, 16691025645594193920, 3509042364593492992, 1671232691635438336, 166910256455941952),
   (167123390859402018816, 16690948472063250432, 16690948472063246336, 3509091301232312832, 1671233908594020352, 166909484720632448),
   (167123401777821024256, 16690925110262953984, 16690925110262951936, 3509141265173613568, 1671234017778210304, 166909251102629504),
   (167123411270429966336, 16690946682418518016, 16690946682418518016, 3509190270948341248, 1671234112704299520, 166909466824185184),
   (167123479415823466496, 16691002965857267712, 16691002965857267712, 3509236755597285888, 1671234794158234368, 166910029658572672),
   (167123631737827688448, 16691083746325078016, 16691083746325078016, 3509279595170846208, 1671236317378277120, 166910837463250784),
   (167123870898904563712, 16691179681168181248, 16691179681168181248, 3509318077370563584, 1671238708989045760, 166911796811681856),
   (167124185678990508032, 16691282785283915776, 16691282785283915776, 3509351848329308160, 1671241856789904896, 166912827852839168),
   (167124557611243012096, 16691386638799497216, 16691386638799499264, 3509380846971515392, 1671245576112430080, 166913866387994976),
   (167124965665421983744, 16691486399872731136, 16691486399872729088, 3509405236518882304, 1671249656654219776, 166914863998727328),
   (167125389359083421696, 16691578690328180736, 16691578690328178688, 3509425339529337856, 1671253893590834176, 166915786903281792),
   (167125810646549135360, 16691661407071457280, 16691661407071457280, 3509441580346903040, 1671258106465491456, 166916614070714560),
   (167126214893876248576, 16691733498997006336, 16691733498997006336, 3509454436934586880, 1671262148938762240, 166917334989970048),
   (167126591201058455552, 16691794737752113152, 16691794737752113152, 3509464402681382400, 1671265912010584064, 166917947377521088),
   (167126932285033512960, 16691845501345564672, 16691845501345564672, 3509471957830776320, 1671269322850335488, 166918455013455680),
   (167127234091916394496, 16691886582138216448, 16691886582138216448, 3509477549585827328, 1671272340919163904, 166918865821382144),
   (167127495266211463168, 16691919025064751104, 16691919025064751104, 3509481579624726016, 1671274952662114560, 166919190250647488),
   (167127716569649741824, 16691943997791436800, 16691943997791436800, 3509484397639983104, 1671277165696497408, 166919439977914368),
   (167127900313119490048, 16691962691666804736, 16691962691666806784, 3509486299533782016, 1671279003131195136, 166919626916668064),
   (167128049841789927424, 16691976250522998784, 16691976250522998784, 3509487529012419584, 1671280498417899264, 166919762505230016),
   (167128169095523565568, 16691985723400583168, 16691985723400583168, 3509488281485507584, 1671281690955235584, 166919857234005856),
   (167128262253389119488, 16691992036890263552, 16691992036890263552, 3509488709361650688, 1671282622533891328, 166919920368902656),
   (167128333461798879232, 16691995982831923200, 16691995982831925248, 3509488928020832768, 1671283334617988864, 166919959828319232),
   (167128386639755935744, 16691998217437865984, 16691998217437870080, 3509489021920793600, 1671283866397559552, 166919982174378688),
   (167128425351206666240, 16691999268396568576, 16691999268396572672, 3509489050451806720, 1671284253512066560, 166919992683965728),
   (167128452732913614848, 16691999547077558272, 16691999547077560320, 3509489053287205888, 1671284527329135872, 166919995470775616),
   (167128471466052976640, 16691999363533711360, 16691999363533713408, 3509489055084639744, 1671284714660529920, 166919993635337152),
   (167128483780441374720, 16691998942541199360, 16691998942541199360, 3509489069476215296, 1671284837804413952, 166919989425412032),
   (167128491481552715776, 16691998439402995712, 16691998439402995712, 3509489102346862592, 1671284914815526912, 166919984394029920),
   (167128495992019648512, 16691997954655844352, 16691997954655844352, 3509489154442300416, 1671284959920196608, 166919979546558432),
   (167128498400926302208, 16691997547158237184, 16691997547158237184, 3509489223374367232, 1671284984009263104, 166919975471582368),
   (167128499515749269504, 16691997245300770816, 16691997245300770816, 3509489305105426432, 1671284995157492480, 166919972453007712),
   (167128499913207349248, 16691997056276688896, 16691997056276688896, 3509489394998127616, 1671284999132073472, 166919970562766912),
   (167128499986487279616, 16691996973488353280, 16691996973488353280, 3509489488514688000, 1671284999864872960, 166919969734883552),
   (167128499987305103360, 16691996982254536704, 16691996982254534656, 3509489581643339776, 1671284999873050880, 166919969822545344),
   (167128500062044028928, 16691997064033998848, 16691997064034000896, 3509489671120419840, 1671285000620440320, 166919970640340000),
   (167128500281794723840, 16691997199401629696, 16691997199401635840, 3509489754506222080, 1671285002817947392, 166919971994016352),
   (167128500666536525824, 16691997370012950528, 16691997370012958720, 3509489830162197504, 1671285006665365248, 166919973700129568),
   (167128501203968262144, 16691997559777767424, 16691997559777771520, 3509489897167074816, 1671285012039682560, 166919975597777728),
   (167128501863650394112, 16691997755439888384, 16691997755439892480, 3509489955200440832, 1671285018636503808, 166919977554398912),
   (167128502607185739776, 16691997946731491328, 16691997946731495424, 3509490004414530560, 1671285026071857408, 166919979467314944),
   (167128503395165929472, 16691998126240958464, 16691998126240964608, 3509490045308461568, 1671285033951659520, 166919981262409664),
   (167128504191567069184, 16691998289104572416, 16691998289104576512, 3509490078613948928, 1671285041915670272, 166919982891045728),
   (167128504966206488576, 16691998432606152704, 16691998432606156800, 3509490105197522432, 1671285049662064896, 166919984326061536),
   (167128505695787778048, 16691998555746121728, 16691998555746123776, 3509490125981278720, 1671285056957877504, 166919985557461216),
   (167128506363970060288, 16691998658822213632, 16691998658822213632, 3509490141882136064, 1671285063639700992, 166919986588222144),
   (167128506960812048384, 16691998743048710144, 16691998743048710144, 3509490153768192000, 1671285069608120576, 166919987430487104),
   (167128507481858801664, 16691998810229127168, 16691998810229129216, 3509490162429996544, 1671285074818588160, 166919988102291296),
   (167128507927071981568, 16691998862488334336, 16691998862488336384, 3509490168564186624, 1671285079270719744, 166919988624883360),
   (167128508299741954048, 16691998902063845376, 16691998902063847424, 3509490172766884352, 1671285082997419520, 166919989020638464),
   (167128508605474701312, 16691998931151937536, 16691998931151941632, 3509490175534386688, 1671285086054746880, 166919989311519424),
   (167128508851306168320, 16691998951801776128, 16691998951801778176, 3509490177268968960, 1671285088513061888, 166919989518017824),
   (167128509044970913792, 16691998965849638912, 16691998965849640960, 3509490178287956480, 1671285090449709312, 166919989658496416),
   (167128509194329325568, 16691998974885169152, 16691998974885167104, 3509490178834564096, 1671285091943292928, 166919989748851648),
   (167128509306945798144, 16691998980241907712, 16691998980241903616, 3509490179089361920, 1671285093069457920, 166919989802419040),
   (167128509389800931328, 16691998983005321216, 16691998983005317120, 3509490179181527040, 1671285093898009088, 166919989830053152),
   (167128509449116745728, 16691998984032438272, 16691998984032432128, 3509490179199311360, 1671285094491167488, 166919989840324320),
   (167128509490273091584, 16691998983978342400, 16691998983978338304, 3509490179199380480, 1671285094902731008, 166919989839783360),
   (167128509517793132544, 16691998983325841408, 16691998983325839360, 3509490179214850048, 1671285095177931520, 166919989833258400),
   (167128509535378898944, 16691998982415554560, 16691998982415550464, 3509490179261967872, 1671285095353788928, 166919989824155520),
   (167128509545979969536, 16691998981474482176, 16691998981474478080, 3509490179345506304, 1671285095459799552, 166919989814744768),
   (167128509551881420800, 16691998980641898496, 16691998980641892352, 3509490179462966784, 1671285095518814208, 166919989806418912),
   (167128509554800295936, 16691998979991840768, 16691998979991834624, 3509490179607736320, 1671285095548003072, 166919989799918336),
   (167128509555982630912, 16691998979551979520, 16691998979551973376, 3509490179771373056, 1671285095559826176, 166919989795519712),
   (167128509556295204864, 16691998979318896640, 16691998979318890496, 3509490179945159680, 1671285095562952448, 166919989793188928),
   (167128509556308738048, 16691998979270043648, 16691998979270041600, 3509490180121099776, 1671285095563087360, 166919989792700416),
   (167128509556370276352, 16691998979372742656, 16691998979372742656, 3509490180292469760, 1671285095563703040, 166919989793727456),
   (167128509556664139776, 16691998979590658048, 16691998979590658048, 3509490180454063616, 1671285095566641408, 166919989795906592),
   (167128509557261664256, 16691998979888189440, 16691998979888191488, 3509490180602212352, 1671285095572616960, 166919989798881920),
   (167128509558160523264, 16691998980233246720, 16691998980233246720, 3509490180734669312, 1671285095581605632, 166919989802332480),
   (167128509559314644992, 16691998980598728704, 16691998980598728704, 3509490180850405888, 1671285095593146368, 166919989805987264),
   (167128509560656068608, 16691998980963100672, 16691998980963100672, 3509490180949380096, 1671285095606560768, 166919989809630976),
   (167128509562110345216, 16691998981310343168, 16691998981310343168, 3509490181032294400, 1671285095621103360, 166919989813103424),
   (167128509563606532096, 16691998981629487104, 16691998981629487104, 3509490181100370432, 1671285095636065280, 166919989816294848),
   (167128509565083189248, 16691998981913905152, 16691998981913903104, 3509490181155151872, 1671285095650831616, 166919989819139040),
   (167128509566491295744, 16691998982160517120, 16691998982160515072, 3509490181198344192, 1671285095664912640, 166919989821605152),
   (167128509567794970624, 16691998982368997376, 16691998982368993280, 3509490181231684096, 1671285095677949184, 166919989823689920),
   (167128509568970850304, 16691998982541006848, 16691998982541004800, 3509490181256845312, 1671285095689708544, 166919989825410048),
   (167128509570006745088, 16691998982679554048, 16691998982679549952, 3509490181275376640, 1671285095700067328, 166919989826795520),
   (167128509570899410944, 16691998982788438016, 16691998982788435968, 3509490181288658432, 1671285095708994304, 166919989827884352),
   (167128509571652812800, 16691998982871816192, 16691998982871814144, 3509490181297885696, 1671285095716528128, 166919989828718144),
   (167128509572275863552, 16691998982933870592, 16691998982933868544, 3509490181304065536, 1671285095722758912, 166919989829338688),
   (167128509572780949504, 16691998982978576384, 16691998982978576384, 3509490181308022784, 1671285095727809280, 166919989829785760),
   (167128509573182160896, 16691998983009554432, 16691998983009554432, 3509490181310414848, 1671285095731821824, 166919989830095552),
   (167128509573494308864, 16691998983029979136, 16691998983029979136, 3509490181311751680, 1671285095734942976, 166919989830299776),
   (167128509573731844096, 16691998983042547712, 16691998983042547712, 3509490181312416256, 1671285095737318656, 166919989830425472),
   (167128509573908430848, 16691998983049482240, 16691998983049482240, 3509490181312688128, 1671285095739084032, 166919989830494784),
   (167128509574036258816, 16691998983052554240, 16691998983052554240, 3509490181312762368, 1671285095740362752, 166919989830525536),
   (167128509574126141440, 16691998983053144064, 16691998983053144064, 3509490181312765952, 1671285095741261056, 166919989830531424),
   (167128509574187188224, 16691998983052279808, 16691998983052279808, 3509490181312778240, 1671285095741872128, 166919989830522816),
   (167128509574226968576, 16691998983050704896, 16691998983050702848, 3509490181312840704, 1671285095742269952, 166919989830507072),
   (167128509574251577344, 16691998983048923136, 16691998983048919040, 3509490181312970240, 1671285095742515712, 166919989830489216),
   (167128509574265765888, 16691998983047254016, 16691998983047249920, 3509490181313165824, 1671285095742657536, 166919989830472512),
   (167128509574273138688, 16691998983045883904, 16691998983045881856, 3509490181313418240, 1671285095742731776, 166919989830458848),
   (167128509574276448256, 16691998983044898816, 16691998983044894720, 3509490181313713664, 1671285095742764288, 166919989830448928),
   (167128509574277529600, 16691998983044306944, 16691998983044302848, 3509490181314034176, 1671285095742775296, 166919989830443040),
   (167128509574277693440, 16691998983044081664, 16691998983044079616, 3509490181314364416, 1671285095742776832, 166919989830440768),
   (167128509574277693440, 16691998983044167680, 16691998983044165632, 3509490181314691072, 1671285095742777088, 166919989830441664),
   (167128509574278053888, 16691998983044499456, 16691998983044497408, 3509490181315003392, 1671285095742780672, 166919989830444960),
   (167128509574278938624, 16691998983045007360, 16691998983045005312, 3509490181315292672, 1671285095742789120, 166919989830450016),
   (167128509574280380416, 16691998983045625856, 16691998983045623808, 3509490181315553280, 1671285095742804224, 166919989830456288),
   (167128509574282379264, 16691998983046303744, 16691998983046303744, 3509490181315783680, 1671285095742823680, 166919989830463040),
   (167128509574284771328, 16691998983046993920, 16691998983046993920, 3509490181315982336, 1671285095742847744, 166919989830469952),
   (167128509574287425536, 16691998983047663616, 16691998983047663616, 3509490181316149760, 1671285095742874624, 166919989830476640),
   (167128509574290276352, 16691998983048286208, 16691998983048286208, 3509490181316288000, 1671285095742902528, 166919989830482848),
   (167128509574293094400, 16691998983048845312, 16691998983048847360, 3509490181316400128, 1671285095742930944, 166919989830488448),
   (167128509574295814144, 16691998983049336832, 16691998983049336832, 3509490181316489728, 1671285095742957824, 166919989830493376),
   (167128509574298337280, 16691998983049754624, 16691998983049756672, 3509490181316558848, 1671285095742983680, 166919989830497600),
   (167128509574300631040, 16691998983050104832, 16691998983050104832, 3509490181316612096, 1671285095743006464, 166919989830501056),
   (167128509574302662656, 16691998983050387456, 16691998983050389504, 3509490181316652032, 1671285095743026688, 166919989830503872),
   (167128509574304432128, 16691998983050614784, 16691998983050614784, 3509490181316680704, 1671285095743044352, 166919989830506144),
   (167128509574305939456, 16691998983050788864, 16691998983050788864, 3509490181316701184, 1671285095743059712, 166919989830507904),
   (167128509574307217408, 16691998983050921984, 16691998983050921984, 3509490181316715008, 1671285095743072256, 166919989830509216),
   (167128509574308233216, 16691998983051020288, 16691998983051020288, 3509490181316723712, 1671285095743082240, 166919989830510176),
   (167128509574309085184, 16691998983051089920, 16691998983051087872, 3509490181316729344, 1671285095743090688, 166919989830510880),
   (167128509574309740544, 16691998983051134976, 16691998983051134976, 3509490181316731904, 1671285095743097344, 166919989830511360),
   (167128509574310232064, 16691998983051161600, 16691998983051163648, 3509490181316733440, 1671285095743102464, 166919989830511648),
   (167128509574310592512, 16691998983051180032, 16691998983051177984, 3509490181316733952, 1671285095743106048, 166919989830511808),
   (167128509574310887424, 16691998983051186176, 16691998983051186176, 3509490181316734464, 1671285095743108864, 166919989830511872),
   (167128509574311084032, 16691998983051188224, 16691998983051190272, 3509490181316733952, 1671285095743110656, 166919989830511872),
   (167128509574311215104, 16691998983051186176, 16691998983051188224, 3509490181316733952, 1671285095743112192, 166919989830511904),
   (167128509574311280640, 16691998983051184128, 16691998983051184128, 3509490181316733952, 1671285095743112960, 166919989830511840),
   (167128509574311346176, 16691998983051180032, 16691998983051180032, 3509490181316734464, 1671285095743113472, 166919989830511808),
   (167128509574311378944, 16691998983051173888, 16691998983051173888, 3509490181316734464, 1671285095743113984, 166919989830511776),
   (167128509574311411712, 16691998983051171840, 16691998983051169792, 3509490181316734464, 1671285095743114240, 166919989830511744),
   (167128509574311411712, 16691998983051167744, 16691998983051167744, 3509490181316734976, 1671285095743114240, 166919989830511712),
   (167128509574311411712, 16691998983051167744, 16691998983051167744, 3509490181316736000, 1671285095743114240, 166919989830511712),
   (167128509574311411712, 16691998983051167744, 16691998983051167744, 3509490181316737024, 1671285095743114240, 166919989830511712),
   (167128509574311411712, 16691998983051167744, 16691998983051167744, 3509490181316738048, 1671285095743114240, 166919989830511712),
   (167128509574311411712, 16691998983051167744, 16691998983051167744, 3509490181316739072, 1671285095743114240, 166919989830511712),
   (167128509574311411712, 16691998983051167744, 16691998983051167744, 3509490181316740096, 1671285095743114240, 166919989830511712),
   (167128509574311444480, 16691998983051171840, 16691998983051171840, 3509490181316741120, 1671285095743114240, 166919989830511680),
   (167128509574311477248, 16691998983051173888, 16691998983051173888, 3509490181316741632, 1671285095743114496, 166919989830511712),
   (167128509574311477248, 16691998983051175936, 16691998983051175936, 3509490181316741632, 1671285095743114752, 166919989830511776)]

/-- Covariance and gain in these units. -/
def covOf (s : Int × Int × Int × Int × Int × Int) : Res (Mat (Flt binary64) 2 2) := do
  let p0 ← unit s.1
  let p1 ← unit s.2.1
  let p2 ← unit s.2.2.1
  let p3 ← unit s.2.2.2.1
  .ok (Mat.mk22 p0 p1 p2 p3)

def gainOf (s : Int × Int × Int × Int × Int × Int) : Res (Mat (Flt binary64) 2 1) := do
  let g0 ← unit s.2.2.2.2.1
  let g1 ← unit s.2.2.2.2.2
  .ok ⟨#v[g0, g1]⟩

/-- The first update. -/
def firstOk : Bool := Res.yields setup fun (_, _, _, _, k, _) =>
  Res.yields (covOf (states.getD 0 0)) fun P => Res.yields (gainOf (states.getD 0 0)) fun K =>
    decide (cov k k.P = .ok (K, P))

/-- The update from one literal to the other. -/
def stepOk (s s' : Int × Int × Int × Int × Int × Int) : Bool := Res.yields setup fun (_, _, _, _, k, _) =>
  Res.yields (covOf s) fun P₀ => Res.yields (covOf s') fun P => Res.yields (gainOf s') fun K =>
    decide (cov k P₀ = .ok (K, P))

def nextOk (i : Nat) : Bool := stepOk (states.getD i 0) (states.getD (i + 1) 0)

theorem first_ok : firstOk = true := by decide +kernel
theorem last_ok : stepOk (states.getD 184 0) (states.getD 184 0) = true := by decide +kernel

private theorem next_ok_0 : (List.range' 0 8).all nextOk = true := by decide +kernel
private theorem next_ok_8 : (List.range' 8 8).all nextOk = true := by decide +kernel
private theorem next_ok_16 : (List.range' 16 8).all nextOk = true := by decide +kernel
private theorem next_ok_24 : (List.range' 24 8).all nextOk = true := by decide +kernel
private theorem next_ok_32 : (List.range' 32 8).all nextOk = true := by decide +kernel
private theorem next_ok_40 : (List.range' 40 8).all nextOk = true := by decide +kernel
private theorem next_ok_48 : (List.range' 48 8).all nextOk = true := by decide +kernel
private theorem next_ok_56 : (List.range' 56 8).all nextOk = true := by decide +kernel
private theorem next_ok_64 : (List.range' 64 8).all nextOk = true := by decide +kernel
private theorem next_ok_72 : (List.range' 72 8).all nextOk = true := by decide +kernel
private theorem next_ok_80 : (List.range' 80 8).all nextOk = true := by decide +kernel
private theorem next_ok_88 : (List.range' 88 8).all nextOk = true := by decide +kernel
private theorem next_ok_96 : (List.range' 96 8).all nextOk = true := by decide +kernel
private theorem next_ok_104 : (List.range' 104 8).all nextOk = true := by decide +kernel
private theorem next_ok_112 : (List.range' 112 8).all nextOk = true := by decide +kernel
private theorem next_ok_120 : (List.range' 120 8).all nextOk = true := by decide +kernel
private theorem next_ok_128 : (List.range' 128 8).all nextOk = true := by decide +kernel
private theorem next_ok_136 : (List.range' 136 8).all nextOk = true := by decide +kernel
private theorem next_ok_144 : (List.range' 144 8).all nextOk = true := by decide +kernel
private theorem next_ok_152 : (List.range' 152 8).all nextOk = true := by decide +kernel
private theorem next_ok_160 : (List.range' 160 8).all nextOk = true := by decide +kernel
private theorem next_ok_168 : (List.range' 168 8).all nextOk = true := by decide +kernel
private theorem next_ok_176 : (List.range' 176 8).all nextOk = true := by decide +kernel

theorem next_ok (i : Nat) (h : i < 184) : nextOk i = true := by
  have key (a : Nat) (hk : (List.range' a 8).all nextOk = true) (h1 : i / 8 * 8 = a) : nextOk i = true :=
    List.all_eq_true.1 hk i (List.mem_range'_1.2 (by omega))
  have hm : i / 8 < 23 := by omega
  match hj : i / 8, hm with
  | 0, _ => exact key 0 next_ok_0 (by rw [hj])
  | 1, _ => exact key 8 next_ok_8 (by rw [hj])
  | 2, _ => exact key 16 next_ok_16 (by rw [hj])
  | 3, _ => exact key 24 next_ok_24 (by rw [hj])
  | 4, _ => exact key 32 next_ok_32 (by rw [hj])
  | 5, _ => exact key 40 next_ok_40 (by rw [hj])
  | 6, _ => exact key 48 next_ok_48 (by rw [hj])
  | 7, _ => exact key 56 next_ok_56 (by rw [hj])
  | 8, _ => exact key 64 next_ok_64 (by rw [hj])
  | 9, _ => exact key 72 next_ok_72 (by rw [hj])
  | 10, _ => exact key 80 next_ok_80 (by rw [hj])
  | 11, _ => exact key 88 next_ok_88 (by rw [hj])
  | 12, _ => exact key 96 next_ok_96 (by rw [hj])
  | 13, _ => exact key 104 next_ok_104 (by rw [hj])
  | 14, _ => exact key 112 next_ok_112 (by rw [hj])
  | 15, _ => exact key 120 next_ok_120 (by rw [hj])
  | 16, _ => exact key 128 next_ok_128 (by rw [hj])
  | 17, _ => exact key 136 next_ok_136 (by rw [hj])
  | 18, _ => exact key 144 next_ok_144 (by rw [hj])
  | 19, _ => exact key 152 next_ok_152 (by rw [hj])
  | 20, _ => exact key 160 next_ok_160 (by rw [hj])
  | 21, _ => exact key 168 next_ok_168 (by rw [hj])
  | 22, _ => exact key 176 next_ok_176 (by rw [hj])
  | _ + 23, h => omega

end SettledRun
end Verif
