import Verif.Lemmas.KalmanSimForever

/-
The covariance and the gain of the estimator of example/avr/avr-kalman-sim.e.cpp with its default numeric type `double`,
which has 32 bits on the target, after every number of updates (for C154); as in KalmanSimSettled and KalmanSimForever.
-/

namespace Verif
open KalmanSim Ieee

namespace TargetRun

open SettledRun (cov Below upper lower covSeq_succ first below_psd psd_of Q_psd R_posDef first_psd between step_update)
open ErrorRun (inUnits exact covMat covNext cov_next)

set_option Elab.async false

/-- A number in these units. -/
def unit (n : Int) : Res (Flt binary32) := Flt.ofRat binary32 (n / 9223372036854775808)

/-- The program's matrices and estimator. -/
def setup : Res (Params (Flt binary32) × Mat (Flt binary32) 2 2 × Mat (Flt binary32) 2 1 × Mat (Flt binary32) 1 2 ×
    Kalman (Flt binary32) .one .one × ColVec (Flt binary32) 2) := do
  let p ← constants binary32
  .ok (p, ← sysA p, ← sysB p, ← sysH, ← estim false p, ← start)

/-- The four elements of the covariance and the two of the gain after each update, in units of `2 ^ (-63)`. -/
def states : List (Int × Int × Int × Int × Int × Int) :=
  [(921415826685296640, 737132730067714048, 737132661348237312, 737280133345312768, 9214158696349696, 7371327279202304),
   (3213956325750865920, 1653099789442613248, 1653099652003659776, 1103241858412183552, 32139566693482496, 16530997336080384),
   (7651622913728053248, 2916412536356077568, 2916412261478170624, 1462877955645505536, 76516225357709312, 29164122872479744),
   (14798259928027889664, 4490535779965075456, 4490535505087168512, 1809593554301878272, 147982599967473664, 44905356253462528),
   (24985473753395757056, 6308933398748463104, 6308932848992649216, 2134172822795190272, 249854740282736640, 63089332956692480),
   (38180959088940154880, 8270427508084572160, 8270426958328758272, 2425745851734294528, 381809570273558528, 82704268208898048),
   (53895091312184524800, 10244850224895885312, 10244849125384257536, 2673823987384975360, 538950913121845248, 102448490566647808),
   (71195541737379463168, 12091705403629371392, 12091704304117743616, 2870978516873117696, 711955494339608576, 120917047507943424),
   (88866927803367424000, 13687727895206690816, 13687726795695063040, 3015125590786179072, 888669278033674240, 136877266238963712),
   (105675425939969802240, 14952480727474634752, 14952480727474634752, 3110291345827168256, 1056754163192430592, 149524802464382976),
   (120631625215769575424, 15860700421761794048, 15860700421761794048, 3165442849076412416, 1206316125713858560, 158606991848112128),
   (133147023027115917312, 16437399768088444928, 16437399768088444928, 3192016395852316672, 1331470235768717312, 164373999055273984),
   (143047914129006264320, 16740892465145315328, 16740891365633687552, 3201319088857022464, 1430479058826690560, 167408908845973504),
   (150484157558259974144, 16842905153970372608, 16842904054458744832, 3202718492281274368, 1504841504114343936, 168429032298250240),
   (155798827331022225408, 16812875292392554496, 16812876391904182272, 3202888091949858816, 1557988185349292032, 168128745364783104),
   (159411189221196562432, 16708945055288655872, 16708946154800283648, 3205877938943688704, 1594111815246151680, 167089466358366208),
   (161735521617942937600, 16574799139141844992, 16574801338165100544, 3213619600314859520, 1617355216179429376, 165748010632871936),
   (163136369800473739264, 16440225512971829248, 16440227711995084800, 3226547108278435840, 1631363681512062976, 164402277119950848),
   (163911129673869819904, 16323421094218301440, 16323423293241556992, 3244156886508896256, 1639111115319279616, 163234217814130688),
   (164288745947313209344, 16233768015601074176, 16233769115112701952, 3265442057233104896, 1642887250565922816, 162337669160894464),
   (164437048075667636224, 16174413079398842368, 16174414178910470144, 3289197280829112320, 1644370491751792640, 161744139040325632),
   (164473059280500555776, 16144390914402418688, 16144393113425674240, 3314216393041248256, 1644730581809889280, 161443938006204416),
   (164473745375756288000, 16140266646286630912, 16140267745798258688, 3339410877358014464, 1644737453757562880, 161402689140293632),
   (164485637693522313216, 16157326668703203328, 16157326668703203328, 3363872812052774912, 1644856475891269632, 161573268061421568),
   (164533206964586414080, 16190426366745772032, 16190427466257399808, 3386900433829101568, 1645332014670282752, 161904255421120512),
   (164625530756947509248, 16234564062019584000, 16234564062019584000, 3407997038309146624, 1646255466998661120, 162345640620195840),
   (164761641500373155840, 16285230657339129856, 16285229557827502080, 3426856136626667520, 1647616250076987392, 162852292142301184),
   (164934502320445587456, 16338605349797888000, 16338605349797888000, 3443336441537495040, 1649345094672711680, 163386053497978880),
   (165134120855491575808, 16391649089256685568, 16391649089256685568, 3457431081093955584, 1651341120593985536, 163916481959034880),
   (165349589950163582976, 16442085886646026240, 16442085886646026240, 3469236812319293440, 1653495888506519552, 164420848558538752),
   (165570582991253536768, 16488354435454468096, 16488354435454468096, 3478925159027441664, 1655705769439395840, 164883536795402240),
   (165788092779506696192, 16529514653240262656, 16529515752751890432, 3486713824520699904, 1657880878317043712, 165295149281181696),
   (165995012071761117184, 16565133332422066176, 16565133332422066176, 3492844976235085824, 1659950159200518144, 165651339508973568),
   (166186133580947652608, 16595174189116162048, 16595173089604534272, 3497567103798476800, 1661861385287499776, 165951729521655808),
   (166358097199531819008, 16619893409531822080, 16619892310020194304, 3501120450501541888, 1663581021473341440, 166198913479475200),
   (166509196485467308032, 16639741793436434432, 16639738494901551104, 3503727392570998784, 1665091887888859136, 166397392508157952),
   (166639062002847186944, 16655278992248537088, 16655276793225281536, 3505586666733568000, 1666390548560216064, 166552767245058048),
   (166748344662555099136, 16667122931502940160, 16667120732479684608, 3506870621436903424, 1667483325679271936, 166671205263212544),
   (166838416655102509056, 16675888238199570432, 16675887138687942656, 3507723842460057600, 1668384100580327424, 166758856955789312),
   (166911160344396169216, 16682159852524404736, 16682159852524404736, 3508264527303016448, 1669111839838961664, 166821615017918464),
   (166968739569319542784, 16686467739082031104, 16686467739082031104, 3508586959087861760, 1669687434176102400, 166864684949962752),
   (167013353353128181760, 16689275891779371008, 16689275891779371008, 3508763430704119808, 1670133561019072512, 166892756856209408),
   (167047165534705549312, 16690972438221029376, 16690971338709401600, 3508848367977365504, 1670471660844613632, 166909713387094016),
   (167072164031074664448, 16691878435802316800, 16691876236779061248, 3508881353326198784, 1670721662300979200, 166918749998284800),
   (167090160837398102016, 16692250070732505088, 16692247871709249536, 3508889049907593216, 1670901569891074048, 166922478029897728),
   (167102721658233815040, 16692280857058082816, 16692280857058082816, 3508889049907593216, 1671027463972454400, 166922821627281408),
   (167111201091907223552, 16692119228848799744, 16692119228848799744, 3508892073564569600, 1671111988928839680, 166921189539708928),
   (167116672261767036928, 16691869639709294592, 16691868540197666816, 3508903618436661248, 1671166689632321536, 166918681278808064),
   (167120014777115475968, 16691600259360489472, 16691600259360489472, 3508925333791309824, 1671200087298015232, 166916001219215360),
   (167121897141022228480, 16691356167779123200, 16691356167779123200, 3508956944750608384, 1671219053873594368, 166913561677791232),
   (167122864711254671360, 16691161554221006848, 16691160454709379072, 3508996802047115264, 1671228674600337408, 166911603172704256),
   (167123286923719737344, 16691025214779162624, 16691024115267534848, 3509042431779667968, 1671232660329988096, 166910228783169536),
   (167123410069022048256, 16690947149453590528, 16690947149453590528, 3509091360047104000, 1671233897280569344, 166909455689056256),
   (167123410069022048256, 16690924059709407232, 16690924059709407232, 3509141387826167808, 1671233897280569344, 166909232350756864),
   (167123427661208092672, 16690946049941962752, 16690944950430334976, 3509190316093603840, 1671234034719522816, 166909438509187072),
   (167123498029952270336, 16691002125034979328, 16691001025523351552, 3509236770459877376, 1671234859353243648, 166910022624739328),
   (167123656359626670080, 16691081289872179200, 16691082389383806976, 3509279651413360640, 1671236508620685312, 166910830078590976),
   (167123885058045247488, 16691178046895423488, 16691178046895423488, 3509318134320332800, 1671238845082894336, 166911774971396096),
   (167124184125208002560, 16691280301476806656, 16691280301476806656, 3509351944302886912, 1671242006178824192, 166912822943416320),
   (167124553561114935296, 16691384755081445376, 16691384755081445376, 3509381081361022976, 1671245442152660992, 166913836555698176),
   (167124958181393956864, 16691484810639572992, 16691484810639572992, 3509405270616834048, 1671249702760218624, 166914867347849216),
   (167125380393859022848, 16691577169616306176, 16691577169616306176, 3509425336704040960, 1671253688489869312, 166915760701046784),
   (167125802606324088832, 16691658533476761600, 16691659632988389376, 3509441554500550656, 1671258086536380416, 166916602514636800),
   (167126207226603110400, 16691731101244194816, 16691732200755822592, 3509454473762177024, 1671262072266031104, 166917306889273344),
   (167126576662510043136, 16691793773406978048, 16691793773406978048, 3509464369366827008, 1671265783117774848, 166917942544433152),
   (167126928506230931456, 16691845450453483520, 16691845450453483520, 3509471791070314496, 1671269356530565120, 166918457940508672),
   (167127227573393686528, 16691887231895339008, 16691887231895339008, 3509477288628453376, 1671272380187541504, 166918870257369088),
   (167127491456184352768, 16691918018220916736, 16691919117732544512, 3509481136919150592, 1671274991527657472, 166919196674883584),
   (167127720154602930176, 16691942207476727808, 16691943306988355584, 3509483885698220032, 1671277190550913024, 166919420013182976),
   (167127896076463374336, 16691960899174400000, 16691963098197655552, 3509485809843568640, 1671278977257308160, 166919608991744000),
   (167128036813951729664, 16691972993802305536, 16691975192825561088, 3509486909355196416, 1671280489085796352, 166919763610566656),
   (167128159959254040576, 16691981789895327744, 16691982889406955520, 3509487733988917248, 1671281726036377600, 166919849509912576),
   (167128247920184262656, 16691989486476722176, 16691989486476722176, 3509488283744731136, 1671282413231144960, 166919883869650944),
   (167128335881114484736, 16691992785011605504, 16691992785011605504, 3509488558622638080, 1671283100425912320, 166919918229389312),
   (167128371065486573568, 16691994984034861056, 16691994984034861056, 3509488833500545024, 1671283925059633152, 166919952589127680),
   (167128406249858662400, 16691996083546488832, 16691996083546488832, 3509488833500545024, 1671283925059633152, 166919952589127680),
   (167128441434230751232, 16691998282569744384, 16691997183058116608, 3509488833500545024, 1671284337376493568, 166919969768996864),
   (167128459026416795648, 16691998282569744384, 16691996083546488832, 3509488833500545024, 1671284749693353984, 166919969768996864),
   (167128476618602840064, 16691997183058116608, 16691996083546488832, 3509488833500545024, 1671284887132307456, 166919969768996864),
   (167128476618602840064, 16691996083546488832, 16691996083546488832, 3509488833500545024, 1671285024571260928, 166919969768996864)]

/-- Covariance and gain in these units. -/
def covOf (s : Int × Int × Int × Int × Int × Int) : Res (Mat (Flt binary32) 2 2) := do
  let p0 ← unit s.1
  let p1 ← unit s.2.1
  let p2 ← unit s.2.2.1
  let p3 ← unit s.2.2.2.1
  .ok (Mat.mk22 p0 p1 p2 p3)

def gainOf (s : Int × Int × Int × Int × Int × Int) : Res (Mat (Flt binary32) 2 1) := do
  let g0 ← unit s.2.2.2.2.1
  let g1 ← unit s.2.2.2.2.2
  .ok ⟨#v[g0, g1]⟩

/-- The first update. -/
def firstOk : Bool := Res.yields setup fun (_, _, _, _, k, _) =>
  Res.yields (covOf (states.getD 0 0)) fun P => Res.yields (gainOf (states.getD 0 0)) fun K =>
    decide (cov k k.P = .ok (K, P))

/-- The update from one literal to the other. -/
def stepOk (s s' : Int × Int × Int × Int × Int × Int) : Bool := Res.yields setup fun (_, _, _, _, k, _) =>
  Res.yields (covOf s) fun P₀ => Res.yields (covOf s') fun P => Res.yields (gainOf s') fun K =>
    decide (cov k P₀ = .ok (K, P))

def nextOk (i : Nat) : Bool := stepOk (states.getD i 0) (states.getD (i + 1) 0)

theorem first_ok : firstOk = true := by decide +kernel
theorem last_ok : stepOk (states.getD 79 0) (states.getD 79 0) = true := by decide +kernel

private theorem next_ok_0 : (List.range' 0 8).all nextOk = true := by decide +kernel
private theorem next_ok_8 : (List.range' 8 8).all nextOk = true := by decide +kernel
private theorem next_ok_16 : (List.range' 16 8).all nextOk = true := by decide +kernel
private theorem next_ok_24 : (List.range' 24 8).all nextOk = true := by decide +kernel
private theorem next_ok_32 : (List.range' 32 8).all nextOk = true := by decide +kernel
private theorem next_ok_40 : (List.range' 40 8).all nextOk = true := by decide +kernel
private theorem next_ok_48 : (List.range' 48 8).all nextOk = true := by decide +kernel
private theorem next_ok_56 : (List.range' 56 8).all nextOk = true := by decide +kernel
private theorem next_ok_64 : (List.range' 64 8).all nextOk = true := by decide +kernel
private theorem next_ok_72 : (List.range' 72 7).all nextOk = true := by decide +kernel

theorem next_ok (i : Nat) (h : i < 79) : nextOk i = true := by
  have key (a n : Nat) (hk : (List.range' a n).all nextOk = true) (h1 : a ≤ i) (h2 : i < a + n) : nextOk i = true :=
    List.all_eq_true.1 hk i (List.mem_range'_1.2 ⟨h1, h2⟩)
  have hm : i / 8 < 10 := by omega
  match hj : i / 8, hm with
  | 0, _ => exact key 0 8 next_ok_0 (by omega) (by omega)
  | 1, _ => exact key 8 8 next_ok_8 (by omega) (by omega)
  | 2, _ => exact key 16 8 next_ok_16 (by omega) (by omega)
  | 3, _ => exact key 24 8 next_ok_24 (by omega) (by omega)
  | 4, _ => exact key 32 8 next_ok_32 (by omega) (by omega)
  | 5, _ => exact key 40 8 next_ok_40 (by omega) (by omega)
  | 6, _ => exact key 48 8 next_ok_48 (by omega) (by omega)
  | 7, _ => exact key 56 8 next_ok_56 (by omega) (by omega)
  | 8, _ => exact key 64 8 next_ok_64 (by omega) (by omega)
  | 9, _ => exact key 72 7 next_ok_72 (by omega) (by omega)
  | _ + 10, h => omega

/-- The literal after `n + 1` updates. -/
def st (n : Nat) : Int × Int × Int × Int × Int × Int := states.getD (min n 79) 0

theorem step_ok (n : Nat) : stepOk (st n) (st (n + 1)) = true := by
  unfold st
  by_cases h : n < 79
  · rw [Nat.min_eq_left h.le, Nat.min_eq_left h]
    exact next_ok n h
  · rw [Nat.min_eq_right (by omega), Nat.min_eq_right (by omega)]
    exact last_ok

/-- An estimator of the program after `n` updates, as far as its covariance is concerned. -/
structure At (k l : Kalman (Flt binary32) .one .one) (n : Nat) : Prop where
  A : l.A = k.A
  B : l.B = k.B
  H : l.H = k.H
  Q : l.Q = k.Q
  R : l.R = k.R
  dt : l.dt = k.dt
  P : match n with
    | 0 => l.P = k.P
    | n + 1 => covOf (st n) = .ok l.P

/-- The next gain and covariance. -/
theorem At.next {p A B H k x} (hs : setup = .ok (p, A, B, H, k, x)) {l : Kalman (Flt binary32) .one .one} {n : Nat}
    (h : At k l n) : ∃ Pm K P, Kalman.predictCov l.A l.P l.Q = .ok Pm ∧ Kalman.gain .one Pm l.H l.R = .ok K ∧
      Kalman.correctCov .one K l.H Pm = .ok P ∧ gainOf (st n) = .ok K ∧ covOf (st n) = .ok P := by
  have key : ∃ K P, gainOf (st n) = .ok K ∧ covOf (st n) = .ok P ∧ cov k l.P = .ok (K, P) := by
    cases n with
    | zero =>
      have e := first_ok
      unfold firstOk at e
      rw [hs] at e
      simp only [Res.yields] at e
      have hP : l.P = k.P := h.P
      split at e
      · rename_i P hP'
        split at e
        · rename_i K hK
          exact ⟨K, P, hK, hP', by rw [hP]; exact of_decide_eq_true e⟩
        · cases e
      · cases e
    | succ n =>
      have e := step_ok n
      unfold stepOk at e
      have hP : covOf (st n) = .ok l.P := h.P
      rw [hs] at e
      simp only [Res.yields] at e
      rw [hP] at e
      simp only at e
      split at e
      · rename_i P hP'
        split at e
        · rename_i K hK
          exact ⟨K, P, hK, hP', of_decide_eq_true e⟩
        · cases e
      · cases e
  obtain ⟨K, P, hK, hP, hc⟩ := key
  unfold cov at hc
  obtain ⟨Pm, h1, hc⟩ := bind_eq_ok.1 hc
  obtain ⟨K', h2, hc⟩ := bind_eq_ok.1 hc
  obtain ⟨P', h3, hc⟩ := bind_eq_ok.1 hc
  cases hc
  exact ⟨Pm, K, P, by rw [h.A, h.Q]; exact h1, by rw [h.H, h.R]; exact h2, by rw [h.H]; exact h3, hK, hP⟩

theorem At.update {p A B H k x} (hs : setup = .ok (p, A, B, H, k, x)) {l l' : Kalman (Flt binary32) .one .one} {n : Nat}
    {v z} (h : At k l n) (hu : l.update v z = .ok l') :
    At k l' (n + 1) ∧ ∃ K, l'.K = some K ∧ gainOf (st n) = .ok K := by
  obtain ⟨Pm, K, P, h1, h2, h3, h4, h5⟩ := h.next hs
  obtain ⟨t, y, Pm', K', y', P', -, -, g1, g2, -, g3, rfl⟩ := Kalman.update_inv hu
  cases h1.symm.trans g1
  cases h2.symm.trans g2
  cases h3.symm.trans g3
  exact ⟨⟨h.A, h.B, h.H, h.Q, h.R, h.dt, h5⟩, K, rfl, h4⟩

/-- The estimator after a run. -/
theorem At.run {p A B H k x} (hs : setup = .ok (p, A, B, H, k, x)) (ds) : ∀ {l l' : Kalman (Flt binary32) .one .one} {n : Nat},
    At k l n → l.run ds = .ok l' → At k l' (n + ds.length) ∧
      (ds ≠ [] → ∃ K, l'.K = some K ∧ gainOf (st (n + ds.length - 1)) = .ok K) := by
  induction ds with
  | nil =>
    intro l l' n h hr
    cases hr
    exact ⟨h, fun h => absurd rfl h⟩
  | cons d ds ih =>
    intro l l' n h hr
    obtain ⟨l1, h1, h2⟩ := Kalman.run_cons.1 hr
    obtain ⟨g1, K, g2, g3⟩ := h.update hs h1
    obtain ⟨i1, i2⟩ := ih g1 h2
    rw [List.length_cons, show n + (ds.length + 1) = n + 1 + ds.length by omega]
    refine ⟨i1, fun _ => ?_⟩
    cases ds with
    | nil =>
      cases h2
      exact ⟨K, g2, g3⟩
    | cons d' ds => exact i2 (List.cons_ne_nil _ _)

/-- The estimator of the program, whichever allocation it is built with. -/
theorem At.start {avr : Bool} {p A B H k x l} (hs : setup = .ok (p, A, B, H, k, x)) (hl : estim avr p = .ok l) :
    At k l 0 := by
  unfold setup at hs
  obtain ⟨p', hp, hs⟩ := bind_eq_ok.1 hs
  obtain ⟨A', hA, hs⟩ := bind_eq_ok.1 hs
  obtain ⟨B', hB, hs⟩ := bind_eq_ok.1 hs
  obtain ⟨H', hH, hs⟩ := bind_eq_ok.1 hs
  obtain ⟨k', hk, hs⟩ := bind_eq_ok.1 hs
  obtain ⟨x', hx, hs⟩ := bind_eq_ok.1 hs
  cases hs
  unfold estim at hk hl
  rw [hx, bind_ok, hA, bind_ok, hB, bind_ok, hH, bind_ok] at hk hl
  obtain ⟨Q, hQ, hk⟩ := bind_eq_ok.1 hk
  obtain ⟨R, hR, hk⟩ := bind_eq_ok.1 hk
  rw [hQ, bind_ok, hR, bind_ok, bind_ok] at hl
  rw [hQ, bind_ok] at hk
  cases hk
  cases hl
  exact ⟨rfl, rfl, rfl, rfl, rfl, rfl, rfl⟩

/-! ### Exactly -/

/-- How close covariance and gain are. -/
def Near (s : Int × Int × Int × Int × Int × Int) (P : ℚ × ℚ × ℚ) : Prop :=
  |inUnits s.1 - P.1| ≤ 1 / 2 ^ 18 ∧ |inUnits s.2.1 - P.2.1| ≤ 1 / 2 ^ 21 ∧ |inUnits s.2.2.1 - P.2.1| ≤ 1 / 2 ^ 21 ∧
    |inUnits s.2.2.2.1 - P.2.2| ≤ 1 / 2 ^ 22 ∧ |inUnits s.2.2.2.2.1 - P.1 / 100| ≤ 1 / 2 ^ 24 ∧
    |inUnits s.2.2.2.2.2 - P.2.1 / 100| ≤ 1 / 2 ^ 27

instance (s P) : Decidable (Near s P) := inferInstanceAs (Decidable (_ ∧ _))

/-- The covariances of the list of literals against the exact ones. -/
def checkAll : List (Int × Int × Int × Int × Int × Int) → ℚ × ℚ × ℚ → Bool
  | [], _ => true
  | s :: l, P₀ => let P := covNext P₀
    decide (0 < P₀.1 + 2 * P₀.2.1 + P₀.2.2 + 1 / 100 + 100 ∧ Near s P) && checkAll l P

theorem all_ok : checkAll ((List.range 260).map st) (1 / 100, 1 / 50, 1 / 25) = true := by decide +kernel

theorem checkAll_spec (l) : ∀ P, checkAll l P = true →
    ∀ i (hi : i < l.length), ∃ P', covSeq exact (covMat P) (i + 1) = covMat P' ∧ Near l[i] P' := by
  induction l with
  | nil => exact fun P h i hi => absurd hi (Nat.not_lt_zero i)
  | cons s l ih =>
    intro P h
    simp only [checkAll, Bool.and_eq_true, decide_eq_true_eq] at h
    obtain ⟨⟨h1, h2⟩, h3⟩ := h
    have g1 := ih _ h3
    intro i hi
    cases i with
    | zero => exact ⟨covNext P, cov_next P h1, h2⟩
    | succ i =>
      obtain ⟨P', e, h⟩ := g1 i (by simpa using hi)
      exact ⟨P', by rw [covSeq_succ, cov_next P h1, e], h⟩

/-- How close the literals are to the exact covariance and gain. -/
structure NearMat (s : Int × Int × Int × Int × Int × Int) (M : Matrix (Fin 2) (Fin 2) ℝ) : Prop where
  p00 : |(inUnits s.1 : ℝ) - M 0 0| ≤ 1 / 2 ^ 18
  p01 : |(inUnits s.2.1 : ℝ) - M 0 1| ≤ 1 / 2 ^ 21
  p10 : |(inUnits s.2.2.1 : ℝ) - M 1 0| ≤ 1 / 2 ^ 21
  p11 : |(inUnits s.2.2.2.1 : ℝ) - M 1 1| ≤ 1 / 2 ^ 22
  g0 : |(inUnits s.2.2.2.2.1 : ℝ) - M 0 0 / 100| ≤ 1 / 2 ^ 24
  g1 : |(inUnits s.2.2.2.2.2 : ℝ) - M 1 0 / 100| ≤ 1 / 2 ^ 27

theorem near_mat {s} {P : ℚ × ℚ × ℚ} (h : Near s P) : NearMat s (covMat P) := by
  obtain ⟨h0, h1, h2, h3, h4, h5⟩ := h
  have key {a b c : ℚ} (h : |a - b| ≤ c) : |(a : ℝ) - b| ≤ c := by exact_mod_cast h
  have k0 := key h0
  have k1 := key h1
  have k2 := key h2
  have k3 := key h3
  have k4 := key h4
  have k5 := key h5
  push_cast at k0 k1 k2 k3 k4 k5
  exact ⟨k0, k1, k2, k3, k4, k5⟩

/-- The literals of the settled covariance, between the bounds. -/
theorem settled_ok : (|inUnits (st 79).1 - lower.1| ≤ 1 / 2 ^ 18 ∧ |inUnits (st 79).1 - upper.1| ≤ 1 / 2 ^ 18) ∧
    (|inUnits (st 79).2.2.2.1 - lower.2.2| ≤ 1 / 2 ^ 22 ∧ |inUnits (st 79).2.2.2.1 - upper.2.2| ≤ 1 / 2 ^ 22) ∧
    |inUnits (st 79).2.1 - lower.2.1| ≤ 1 / 2 ^ 21 - 1 / 2 ^ 58 ∧ |inUnits (st 79).2.2.1 - lower.2.1| ≤ 1 / 2 ^ 21 - 1 / 2 ^ 58 ∧
    (|inUnits (st 79).2.2.2.2.1 - lower.1 / 100| ≤ 1 / 2 ^ 24 ∧ |inUnits (st 79).2.2.2.2.1 - upper.1 / 100| ≤ 1 / 2 ^ 24) ∧
    |inUnits (st 79).2.2.2.2.2 - lower.2.1 / 100| ≤ 1 / 2 ^ 27 - 1 / 2 ^ 58 ∧
    (upper.1 - lower.1) * (upper.2.2 - lower.2.2) ≤ (1 / 2 ^ 58) ^ 2 := by decide +kernel

/-- The exact covariance and gain after every number of updates. -/
theorem near_all (n : ℕ) : NearMat (st n) (covSeq exact first (n + 1)) := by
  by_cases hn : n < 260
  · have h := checkAll_spec _ _ all_ok
    obtain ⟨P', e, hN⟩ := h n (by simpa using hn)
    rw [List.getElem_map, List.getElem_range] at hN
    rw [first, e]
    exact near_mat hN
  · have hst : st n = st 79 := by
      unfold st
      rw [Nat.min_eq_right (by omega), Nat.min_self]
    rw [hst]
    obtain ⟨m, hm⟩ : ∃ m, n + 1 = 260 + m := ⟨n + 1 - 260, by omega⟩
    rw [hm]
    obtain ⟨hl, hu⟩ := between m
    have hs : covSeq exact first (260 + m) 1 0 = covSeq exact first (260 + m) 0 1 :=
      KF.symm2 (KF.riccSeq_psd first_psd Q_psd R_posDef _)
    generalize covSeq exact first (260 + m) = M at *
    have a0 := hl.diag_nonneg (i := 0)
    have a1 := hl.diag_nonneg (i := 1)
    have b0 := hu.diag_nonneg (i := 0)
    have b1 := hu.diag_nonneg (i := 1)
    have c := KF.det2_of_psd hl
    simp only [Matrix.sub_apply] at a0 a1 b0 b1 c
    have eL : covMat lower 0 0 = lower.1 ∧ covMat lower 0 1 = lower.2.1 ∧ covMat lower 1 1 = lower.2.2 := ⟨rfl, rfl, rfl⟩
    have eU : covMat upper 0 0 = upper.1 ∧ covMat upper 1 1 = upper.2.2 := ⟨rfl, rfl⟩
    rw [eL.1, eL.2.2, eL.2.1] at c
    rw [eL.1] at a0
    rw [eL.2.2] at a1
    rw [eU.1] at b0
    rw [eU.2] at b1
    obtain ⟨⟨s1, s2⟩, ⟨s3, s4⟩, s5, s6, ⟨s7, s8⟩, s9, s10⟩ := settled_ok
    have key {a b c : ℚ} (h : |a - b| ≤ c) : |(a : ℝ) - b| ≤ c := by exact_mod_cast h
    have k1 := key s1
    have k2 := key s2
    have k3 := key s3
    have k4 := key s4
    have k5 := key s5
    have k6 := key s6
    have k7 := key s7
    have k8 := key s8
    have k9 := key s9
    have k10 : ((upper.1 : ℝ) - lower.1) * (upper.2.2 - lower.2.2) ≤ (1 / 2 ^ 58) ^ 2 := by
      have := (Rat.cast_le (K := ℝ)).2 s10
      push_cast at this
      exact this
    push_cast at k1 k2 k3 k4 k5 k6 k7 k8 k9
    have off : |M 0 1 - lower.2.1| ≤ 1 / 2 ^ 58 := by
      apply abs_le_of_sq_le_sq _ (by positivity)
      exact c.trans ((mul_le_mul (by linarith) (by linarith) (by linarith) (by linarith)).trans k10)
    rw [abs_le] at *
    constructor <;> try rw [hs]
    all_goals rw [abs_le]
    all_goals constructor
    all_goals linarith

/-! ### The literals are numbers of the format -/

theorem literals_ok : (states.all fun s => Res.yields (unit s.1) (fun x => decide (x.val = inUnits s.1)) &&
    Res.yields (unit s.2.1) (fun x => decide (x.val = inUnits s.2.1)) &&
    Res.yields (unit s.2.2.1) (fun x => decide (x.val = inUnits s.2.2.1)) &&
    Res.yields (unit s.2.2.2.1) (fun x => decide (x.val = inUnits s.2.2.2.1)) &&
    Res.yields (unit s.2.2.2.2.1) (fun x => decide (x.val = inUnits s.2.2.2.2.1)) &&
    Res.yields (unit s.2.2.2.2.2) (fun x => decide (x.val = inUnits s.2.2.2.2.2))) = true := by decide +kernel

private theorem lit_val {n : Int} {x : Flt binary32}
    (h : Res.yields (unit n) (fun x => decide (x.val = inUnits n)) = true) (hx : unit n = .ok x) : x.val = inUnits n := by
  rw [hx] at h
  exact of_decide_eq_true h

theorem st_mem (n : ℕ) : st n ∈ states := by
  unfold st
  have hl : states.length = 80 := rfl
  have h : min n 79 < states.length := by omega
  rw [List.getD_eq_getElem?_getD, List.getElem?_eq_getElem h, Option.getD_some]
  exact List.getElem_mem h

theorem cov_val {n : ℕ} {P : Mat (Flt binary32) 2 2} (h : covOf (st n) = .ok P) :
    (P.get 0 0).val = inUnits (st n).1 ∧ (P.get 0 1).val = inUnits (st n).2.1 ∧ (P.get 1 0).val = inUnits (st n).2.2.1 ∧
      (P.get 1 1).val = inUnits (st n).2.2.2.1 := by
  have hx := List.all_eq_true.1 literals_ok _ (st_mem n)
  simp only [Bool.and_eq_true] at hx
  obtain ⟨⟨⟨⟨⟨h0, h1⟩, h2⟩, h3⟩, -⟩, -⟩ := hx
  unfold covOf at h
  obtain ⟨p0, e0, h⟩ := bind_eq_ok.1 h
  obtain ⟨p1, e1, h⟩ := bind_eq_ok.1 h
  obtain ⟨p2, e2, h⟩ := bind_eq_ok.1 h
  obtain ⟨p3, e3, h⟩ := bind_eq_ok.1 h
  cases h
  exact ⟨lit_val h0 e0, lit_val h1 e1, lit_val h2 e2, lit_val h3 e3⟩

theorem gain_val {n : ℕ} {K : Mat (Flt binary32) 2 1} (h : gainOf (st n) = .ok K) :
    ∃ g0 g1, K = ⟨#v[g0, g1]⟩ ∧ g0.val = inUnits (st n).2.2.2.2.1 ∧ g1.val = inUnits (st n).2.2.2.2.2 := by
  have hx := List.all_eq_true.1 literals_ok _ (st_mem n)
  simp only [Bool.and_eq_true] at hx
  obtain ⟨⟨⟨⟨⟨-, -⟩, -⟩, -⟩, h4⟩, h5⟩ := hx
  unfold gainOf at h
  obtain ⟨g0, e0, h⟩ := bind_eq_ok.1 h
  obtain ⟨g1, e1, h⟩ := bind_eq_ok.1 h
  cases h
  exact ⟨g0, g1, rfl, lit_val h4 e0, lit_val h5 e1⟩

/-! ### The simulation -/

theorem loop_rows {p A B H k x} (hs : setup = .ok (p, A, B, H, k, x)) (gs) : ∀ {l y rs n}, At k l n →
    loop p A B H l y gs = .ok rs → ∀ j (hj : j < rs.length), ∃ P K, covOf (st (n + j)) = .ok P ∧
      gainOf (st (n + j)) = .ok K ∧ K.idx 0 = .ok rs[j].posgain ∧ K.idx 1 = .ok rs[j].velgain ∧
      P.idx 0 = .ok rs[j].posecov ∧ P.idx 1 = .ok rs[j].velecov := by
  induction gs with
  | nil =>
    intro l y rs n h e
    cases e
    exact fun j hj => absurd hj (Nat.not_lt_zero j)
  | cons g gs ih =>
    intro l y rs n h e
    rw [loop] at e
    obtain ⟨s, hs1, e⟩ := bind_eq_ok.1 e
    obtain ⟨rs', h', e⟩ := bind_eq_ok.1 e
    cases e
    obtain ⟨⟨v, z, hu⟩, K, hK, r⟩ := step_update hs1
    obtain ⟨h1, K', hK', hG⟩ := h.update hs hu
    cases hK.symm.trans hK'
    intro j hj
    cases j with
    | zero => exact ⟨s.1.P, K, h1.P, hG, r⟩
    | succ j =>
      have := ih h1 h' j (by simpa using hj)
      rw [show n + (j + 1) = n + 1 + j by omega]
      exact this

end TargetRun
end Verif
