import Verif.Lemmas.KalmanFloat
import Verif.Model.KalmanSimOutput

/-
The run of example/desktop/kalman-sim.e.cpp in `double` without noise, evaluated one pass at a time from
the literal state before it.
-/

namespace Verif
open KalmanSim Ieee

deriving instance DecidableEq for Mat
deriving instance DecidableEq for Kalman

namespace StillRun

set_option Elab.async false

/-- The draws of a run without noise. -/
abbrev still : Flt binary64 × Flt binary64 × Flt binary64 := (CNum.zero, CNum.zero, CNum.zero)

/-- The four elements of the covariance and the two of the gain after each pass, in units of `2 ^ (-63)`. -/
def states : List (Int × Int × Int × Int × Int × Int) :=
  [(921415787897580288, 737132630318064128, 737132630318064128,
    737280056844127744, 9214157878975804, 7371326303180641),
   (3213956381227945472, 1653099629886792448, 1653099629886792448,
    1103241737069904256, 32139563812279452, 16530996298867924),
   (7651622946407366656, 2916412133609701376, 2916412133609700864,
    1462877838818942720, 76516229464073664, 29164121336097012),
   (14798259503257214976, 4490535096815406080, 4490535096815405056,
    1809593392312777728, 147982595032572128, 44905350968154048),
   (24985472166148206592, 6308932744571480064, 6308932744571479040,
    2134172609249346048, 249854721661482080, 63089327445714792),
   (38180956828226494464, 8270426858033682432, 8270426858033682432,
    2425745643587112960, 381809568282264896, 82704268580336816),
   (53895087480397881344, 10244849648750628864, 10244849648750630912,
    2673823944793010688, 538950874803978816, 102448496487506304),
   (71195542816970752000, 12091704831972820992, 12091704831972823040,
    2870978578083411968, 711955428169707392, 120917048319728208),
   (88866925372855812096, 13687727205200191488, 13687727205200193536,
    3015125748562941952, 888669253728558080, 136877272052001920),
   (105675419576648122368, 14952480662259906560, 14952480662259906560,
    3110291632508699648, 1056754195766481152, 149524806622599072),
   (120631619808803061760, 15860700325040560128, 15860700325040560128,
    3165443225129761280, 1206316198088030720, 158607003250405600),
   (133147005864006565888, 16437400364645251072, 16437400364645249024,
    3192016871639955456, 1331470058640065792, 164374003646452512),
   (143047899390451597312, 16740892965870182400, 16740892965870178304,
    3201319591155690496, 1430478993904515840, 167408929658701792),
   (150484137073624481792, 16842906927005261824, 16842906927005257728,
    3202718828835621376, 1504841370736244992, 168429069270052576),
   (155798816515228565504, 16812878141795893248, 16812878141795889152,
    3202888262757482496, 1557988165152285440, 168128781417958880),
   (159411187558777421824, 16708947520315498496, 16708947520315496448,
    3205878188449366016, 1594111875587774208, 167089475203154976),
   (161735508471738073088, 16574801906529445888, 16574801906529445888,
    3213620004000280576, 1617355084717380864, 165748019065294464),
   (163136372943156150272, 16440228288760492032, 16440228288760494080,
    3226547495542760448, 1631363729431561728, 164402282887604928),
   (163911122243300229120, 16323423310653970432, 16323423310653972480,
    3244157237891820032, 1639111222433001984, 163234233106539712),
   (164288735824843079680, 16233769662067652608, 16233769662067654656,
    3265442478723878912, 1642887358248430848, 162337696620676544),
   (164437037172735377408, 16174414273666471936, 16174414273666473984,
    3289197759169723904, 1644370371727353856, 161744142736664768),
   (164473055584893075456, 16144393777625364480, 16144393777625368576,
    3314216846368294912, 1644730555848930560, 161443937776253664),
   (164473728380828647424, 16140269901650681856, 16140269901650683904,
    3339411303627675136, 1644737283808286720, 161402699016506848),
   (164485624061412999168, 16157329503567398912, 16157329503567403008,
    3363873330910087168, 1644856240614129664, 161573295035674016),
   (164533202311595229184, 16190429839154831360, 16190429839154835456,
    3386900803738561536, 1645332023115952384, 161904298391548352),
   (164625541873175592960, 16234566714336894976, 16234566714336899072,
    3407997358728681984, 1646255418731755520, 162345667143368960),
   (164761647980667600896, 16285230994724040704, 16285230994724044800,
    3426856598830331904, 1647616479806675968, 162852309947240448),
   (164934514793900802048, 16338606121964967936, 16338606121964976128,
    3443336895809477120, 1649345147939008000, 163386061219649760),
   (165134130311449739264, 16391648632432060416, 16391648632432068608,
    3457431504789961728, 1651341303114497536, 163916486324320672),
   (165349603654332088320, 16442085433128040448, 16442085433128046592,
    3469237453928724480, 1653496036543320576, 164420854331280448),
   (165570580881139236864, 16488355146231967744, 16488355146231971840,
    3478925710041949184, 1655705808811392512, 164883551462319712),
   (165788100075090280448, 16529515506223396864, 16529515506223398912,
    3486714326763988992, 1657881000750903040, 165295155062234016),
   (165995020137887137792, 16565134122468661248, 16565134122468659200,
    3492845606291377664, 1659950201378871296, 165651341224686592),
   (166186140448618938368, 16595175699917611008, 16595175699917611008,
    3497567739942096896, 1661861404486189312, 165951756999176128),
   (166358110423405559808, 16619895016860581888, 16619895016860581888,
    3501120942434180608, 1663581104234055424, 166198950168605824),
   (166509209602366668800, 16639741653929377792, 16639741653929377792,
    3503727764512537088, 1665092096023666432, 166397416539293760),
   (166639061026290761728, 16655279725454145536, 16655279725454143488,
    3505587054458870784, 1666390610262907392, 166552797254541440),
   (166748324196347183104, 16667123721331601408, 16667123721331599360,
    3506870927980170752, 1667483241963471360, 166671237213315968),
   (166838399506574278656, 16675890013429835776, 16675890013429831680,
    3507724078283073536, 1668383995065743104, 166758900134298336),
   (166911164092430811136, 16682162559078445056, 16682162559078440960,
    3508264791352058880, 1669111640924307968, 166821625590784384),
   (166968749655074045952, 16686470759217752064, 16686470759217750016,
    3508587103804375552, 1669687496550740736, 166864707592177504),
   (167013365871050588160, 16689277201183782912, 16689277201183780864,
    3508763633491469312, 1670133658710505728, 166892772011837792),
   (167047168193187971072, 16690973038107834368, 16690973038107830272,
    3508848711754287104, 1670471681931879680, 166909730381078304),
   (167072165821228711936, 16691878941732124672, 16691878941732122624,
    3508881540786962944, 1670721658212287232, 166918789417321184),
   (167090163981208485888, 16692249842267152384, 16692249842267148288,
    3508889183690617856, 1670901639812084992, 166922498422671488),
   (167102734035451412480, 16692281984126205952, 16692281984126201856,
    3508889265397656576, 1671027340354513920, 166922819841262016),
   (167111205033472327680, 16692121142346694656, 16692121142346690560,
    3508892318878511104, 1671112050334723328, 166921211423466912),
   (167116670849880195072, 16691871137120292864, 16691871137120288768,
    3508903753565429760, 1671166708498801664, 166918711371202880),
   (167120007839410618368, 16691602039539505152, 16691602039539501056,
    3508925453270455808, 1671200078394106368, 166916020395395040),
   (167121898825745858560, 16691357674597971968, 16691357674597967872,
    3508957030973405184, 1671218988257458432, 166913576745979648)]

/-- A number in these units. -/
def unit (n : Int) : Res (Flt binary64) := Flt.ofRat binary64 (n / 9223372036854775808)

/-- The estimator, the system and the readings after `i + 1` passes. -/
def after (k : Kalman (Flt binary64) .one .one) (i : Nat) (s : Int × Int × Int × Int × Int × Int) :
    Res (Kalman (Flt binary64) .one .one × ColVec (Flt binary64) 2 × Row (Flt binary64)) := do
  let pos ← Flt.ofRat binary64 ((i + 1) ^ 2 / 2)
  let vel ← Flt.ofRat binary64 (i + 1)
  let x ← Mat.ofList 2 1 [pos, vel]
  let p0 ← unit s.1
  let p1 ← unit s.2.1
  let p2 ← unit s.2.2.1
  let p3 ← unit s.2.2.2.1
  let g0 ← unit s.2.2.2.2.1
  let g1 ← unit s.2.2.2.2.2
  .ok ({ k with K := some (← Mat.ofList 2 1 [g0, g1]), P := ← Mat.ofList 2 2 [p0, p1, p2, p3], xhat := x, t := vel },
    x, ⟨pos, pos, pos, g0, p0, vel, vel, g1, p1⟩)

/-- The program's matrices and estimator. -/
def setup : Res (Params (Flt binary64) × Mat (Flt binary64) 2 2 × Mat (Flt binary64) 2 1 × Mat (Flt binary64) 1 2 ×
    Kalman (Flt binary64) .one .one × ColVec (Flt binary64) 2) := do
  let p ← constants binary64
  .ok (p, ← sysA p, ← sysB p, ← sysH, ← estim false p, ← start)

/-- The first pass. -/
def firstOk : Bool := Res.yields setup fun (p, A, B, H, k, x) =>
  Res.yields (after k 0 (states.getD 0 0)) fun s => decide (step p A B H k x still = .ok s)

/-- The pass number `i + 2`. -/
def nextOk (i : Nat) : Bool := Res.yields setup fun (p, A, B, H, k, _) =>
  Res.yields (after k i (states.getD i 0)) fun r =>
    Res.yields (after k (i + 1) (states.getD (i + 1) 0)) fun s => decide (step p A B H r.1 r.2.1 still = .ok s)

theorem first_ok : firstOk = true := by decide +kernel

private theorem next_ok_0 : (List.range' 0 7).all nextOk = true := by decide +kernel
private theorem next_ok_7 : (List.range' 7 7).all nextOk = true := by decide +kernel
private theorem next_ok_14 : (List.range' 14 7).all nextOk = true := by decide +kernel
private theorem next_ok_21 : (List.range' 21 7).all nextOk = true := by decide +kernel
private theorem next_ok_28 : (List.range' 28 7).all nextOk = true := by decide +kernel
private theorem next_ok_35 : (List.range' 35 7).all nextOk = true := by decide +kernel
private theorem next_ok_42 : (List.range' 42 7).all nextOk = true := by decide +kernel

theorem next_ok (i : Nat) (h : i < 49) : nextOk i = true := by
  have key (a : Nat) (hk : (List.range' a 7).all nextOk = true) (h1 : a ≤ i) (h2 : i < a + 7) : nextOk i = true :=
    List.all_eq_true.1 hk i (List.mem_range'_1.2 ⟨h1, h2⟩)
  rcases (by omega : i < 7 ∨ (7 ≤ i ∧ i < 14) ∨ (14 ≤ i ∧ i < 21) ∨ (21 ≤ i ∧ i < 28) ∨ (28 ≤ i ∧ i < 35) ∨
    (35 ≤ i ∧ i < 42) ∨ 42 ≤ i) with h' | h' | h' | h' | h' | h' | h'
  · exact key 0 next_ok_0 (by omega) (by omega)
  · exact key 7 next_ok_7 (by omega) (by omega)
  · exact key 14 next_ok_14 (by omega) (by omega)
  · exact key 21 next_ok_21 (by omega) (by omega)
  · exact key 28 next_ok_28 (by omega) (by omega)
  · exact key 35 next_ok_35 (by omega) (by omega)
  · exact key 42 next_ok_42 (by omega) (by omega)

private theorem rest {p A B H k x} (hs : setup = .ok (p, A, B, H, k, x)) (n : Nat) : ∀ (i : Nat) (s), i + n = 49 →
    after k i (states.getD i 0) = .ok s →
    ∃ rows, loop p A B H s.1 s.2.1 (List.replicate n still) = .ok rows ∧ rows.length = n ∧
      ∀ j (hj : j < rows.length), ∃ r, after k (i + 1 + j) (states.getD (i + 1 + j) 0) = .ok r ∧ r.2.2 = rows[j] := by
  induction n with
  | zero => exact fun i s _ _ => ⟨[], rfl, rfl, fun j hj => absurd hj (Nat.not_lt_zero j)⟩
  | succ n ih =>
    intro i s hi ha
    have h := next_ok i (by omega)
    unfold nextOk at h
    rw [hs] at h
    simp only [Res.yields] at h
    rw [ha] at h
    simp only at h
    split at h
    · rename_i s' ha'
      have h := of_decide_eq_true h
      obtain ⟨rows, hl, hn, hr⟩ := ih (i + 1) s' (by omega) ha'
      refine ⟨s'.2.2 :: rows, ?_, by rw [List.length_cons, hn], ?_⟩
      · rw [List.replicate_succ, loop, h, bind_ok]
        simp only
        rw [hl, bind_ok]
      · intro j hj
        cases j with
        | zero => exact ⟨s', ha', rfl⟩
        | succ j =>
          obtain ⟨r, h1, h2⟩ := hr j (by simpa using hj)
          refine ⟨r, ?_, h2⟩
          rw [show i + 1 + (j + 1) = i + 1 + 1 + j by omega]
          exact h1
    · cases h

/-- The run without noise: 50 rows, those of the list of states. -/
theorem run : ∃ p A B H k x rows, setup = .ok (p, A, B, H, k, x) ∧
    main false p (List.replicate 50 still) = .ok rows ∧ rows.length = 50 ∧
    ∀ j (hj : j < rows.length), ∃ r, after k j (states.getD j 0) = .ok r ∧ r.2.2 = rows[j] := by
  obtain ⟨⟨p, A, B, H, k, x⟩, hs, h⟩ := Res.of_yields first_ok
  obtain ⟨s, ha, h⟩ := Res.of_yields h
  have h := of_decide_eq_true h
  obtain ⟨rows, hl, hn, hr⟩ := rest hs 49 0 s rfl ha
  refine ⟨p, A, B, H, k, x, s.2.2 :: rows, hs, ?_, by rw [List.length_cons, hn], ?_⟩
  · unfold setup at hs
    obtain ⟨p', hp, hs⟩ := bind_eq_ok.1 hs
    obtain ⟨A', hA, hs⟩ := bind_eq_ok.1 hs
    obtain ⟨B', hB, hs⟩ := bind_eq_ok.1 hs
    obtain ⟨H', hH, hs⟩ := bind_eq_ok.1 hs
    obtain ⟨k', hk, hs⟩ := bind_eq_ok.1 hs
    obtain ⟨x', hx, hs⟩ := bind_eq_ok.1 hs
    cases hs
    unfold main
    rw [hA, bind_ok, hB, bind_ok, hH, bind_ok, hk, bind_ok, hx, bind_ok, List.replicate_succ, loop, h, bind_ok]
    simp only
    rw [hl, bind_ok]
  · intro j hj
    cases j with
    | zero => exact ⟨s, ha, rfl⟩
    | succ j =>
      obtain ⟨r, h1, h2⟩ := hr j (by simpa using hj)
      refine ⟨r, ?_, h2⟩
      rw [show j + 1 = 0 + 1 + j by omega]
      exact h1

/-- A printed column is that of the list of states. -/
theorem column (g : Row (Flt binary64) → Flt binary64) (u : Int × Int × Int × Int × Int × Int → Int)
    (hu : ∀ k i s r, after k i s = .ok r → unit (u s) = .ok (g r.2.2)) {k} {rows : List (Row (Flt binary64))}
    (hn : rows.length = 50)
    (hr : ∀ j (hj : j < rows.length), ∃ r, after k j (states.getD j 0) = .ok r ∧ r.2.2 = rows[j]) :
    states.mapM (fun s => unit (u s)) = .ok (rows.map g) := by
  have mapM {α β : Type} (F : α → Res β) : ∀ (m : List α) (l : List β), l.map (Except.ok (ε := Err)) = m.map F →
      m.mapM F = .ok l := by
    intro m
    induction m with
    | nil => intro l h; cases l <;> first | rfl | cases h
    | cons a m ih =>
      intro l h
      cases l with
      | nil => cases h
      | cons b l =>
        rw [List.map_cons, List.map_cons, List.cons.injEq] at h
        rw [List.mapM_cons, ← h.1, bind_ok, ih l h.2, bind_ok]
        rfl
  apply mapM
  have hl : states.length = 50 := rfl
  apply List.ext_getElem
  · simp [hn, hl]
  · intro j h1 h2
    have hj : j < rows.length := by simpa using h1
    obtain ⟨r, ha, he⟩ := hr j hj
    have := hu _ _ _ _ ha
    rw [List.getD_eq_getElem?_getD, List.getElem?_eq_getElem (by omega), Option.getD_some] at this
    simp only [List.getElem_map]
    rw [this, he]

end StillRun
end Verif
