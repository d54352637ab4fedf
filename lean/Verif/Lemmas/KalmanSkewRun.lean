import Verif.Lemmas.KalmanSimRun
import Verif.Lemmas.KalmanRun

/-
A run of an estimator with two measurements in `double`, evaluated one update at a time from the literal state before it.
-/

namespace Verif
open Ieee

namespace SkewRun

set_option Elab.async false

/-- An ordinary model: constant velocity, both states measured with the variance 1/64, and the estimate at rest.  All its numbers
are multiples of 1/64. -/
def model {T : Type} [CNum T] (lit : ℚ → Res T) : Res (Kalman T .two .one) := do
  let o ← lit 1
  let h ← lit (1 / 2)
  let r ← lit (1 / 64)
  let z := CNum.zero
  let Q ← Mat.ofList 2 2 [o, h, h, o]
  .ok (Kalman.init false o (← Mat.ofList 2 2 [o, o, z, o]) (← Mat.ofList 2 1 [h, o]) (← Mat.ofList 2 2 [o, z, z, o]) Q
    (← Mat.ofList 2 2 [r, z, z, r]) Q (Mat.fill 2 1 z))

/-- The four elements of the covariance and the four of the gain after each update, in units of `2 ^ (-60)`. -/
def states : List (Int × Int × Int × Int × Int × Int × Int × Int) :=
  [(17875817949655552, 137506291920128, 137506291920128, 17738311657735168,
    1144052348777979264, 8800402682907648, 8800402682907520, 1135251946095071872),
   (17657650258874694, 178373964097402, 178373964097560, 17652202780533468,
    1130089616567977472, 11415933702241024, 11415933702240896, 1129740977954131456),
   (17657572265987088, 178412304005116, 178412304004868, 17652164160351376,
    1130084625023160576, 11418387456316032, 11418387456316288, 1129738506262481664),
   (17657572246640842, 178412319390474, 178412319391156, 17652164140930700,
    1130084623785017344, 11418388441012096, 11418388441011328, 1129738505019555584),
   (17657572246637564, 178412319394922, 178412319393704, 17652164140923536,
    1130084623784796416, 11418388441230592, 11418388441232128, 1129738505019105280),
   (17657572246637344, 178412319392998, 178412319395358, 17652164140923308,
    1130084623784795392, 11418388441233024, 11418388441229824, 1129738505019106560),
   (17657572246637712, 178412319396842, 178412319391968, 17652164140923740,
    1130084623784797440, 11418388441228160, 11418388441234560, 1129738505019103744),
   (17657572246637700, 178412319389618, 178412319399018, 17652164140923580,
    1130084623784792704, 11418388441237760, 11418388441225216, 1129738505019108608),
   (17657572246637358, 178412319403110, 178412319385174, 17652164140923254,
    1130084623784802048, 11418388441219584, 11418388441243136, 1129738505019099904),
   (17657572246637476, 178412319377000, 178412319411426, 17652164140923576,
    1130084623784784640, 11418388441254400, 11418388441208960, 1129738505019116800),
   (17657572246637492, 178412319427426, 178412319361276, 17652164140923718,
    1130084623784817920, 11418388441187328, 11418388441274752, 1129738505019083520),
   (17657572246637464, 178412319330806, 178412319457658, 17652164140923424,
    1130084623784754176, 11418388441315840, 11418388441148288, 1129738505019147520),
   (17657572246637624, 178412319516118, 178412319272474, 17652164140923718,
    1130084623784876288, 11418388441069440, 11418388441391104, 1129738505019024896),
   (17657572246637354, 178412319160336, 178412319628078, 17652164140923316,
    1130084623784641792, 11418388441542528, 11418388440924928, 1129738505019260160),
   (17657572246637648, 178412319843490, 178412318945210, 17652164140923748,
    1130084623785092352, 11418388440633984, 11418388441819904, 1129738505018808832),
   (17657572246637304, 178412318531568, 178412320256750, 17652164140923320,
    1130084623784226816, 11418388442378880, 11418388440101248, 1129738505019675136),
   (17657572246637618, 178412321050914, 178412317737748, 17652164140923660,
    1130084623785889408, 11418388439027840, 11418388443401856, 1129738505018011904),
   (17657572246637586, 178412316212958, 178412322575420, 17652164140923264,
    1130084623782695936, 11418388445463296, 11418388437063296, 1129738505021205760),
   (17657572246637676, 178412325503786, 178412313284928, 17652164140923736,
    1130084623788828672, 11418388433104640, 11418388449235968, 1129738505015072512),
   (17657572246637512, 178412307661336, 178412331127150, 17652164140923396,
    1130084623777051136, 11418388456838656, 11418388425858944, 1129738505026850560),
   (17657572246637512, 178412341926948, 178412296861670, 17652164140923744,
    1130084623799669760, 11418388411258368, 11418388470753664, 1129738505004231552),
   (17657572246637488, 178412276121112, 178412362667298, 17652164140923378,
    1130084623756231552, 11418388498793600, 11418388384535168, 1129738505047670144),
   (17657572246637502, 178412402498854, 178412236289738, 17652164140923646,
    1130084623839653120, 11418388330685312, 11418388550114688, 1129738504964248320),
   (17657572246637528, 178412159794656, 178412478993660, 17652164140923294,
    1130084623679444736, 11418388653531648, 11418388232124800, 1129738505124456960),
   (17657572246637520, 178412625900090, 178412012888648, 17652164140923800,
    1130084623987119616, 11418388033515904, 11418388842813952, 1129738504816781696),
   (17657572246637520, 178411730759710, 178412908028850, 17652164140923526,
    1130084623396240000, 11418389224236032, 11418387670004864, 1129738505407661568),
   (17657572246637394, 178413449848350, 178411188940236, 17652164140923756,
    1130084624531005696, 11418386937495808, 11418389922347648, 1129738504272895744),
   (17657572246637392, 178410148392856, 178414490395594, 17652164140923302,
    1130084622351724288, 11418391329108096, 11418385596794496, 1129738506452177664),
   (17657572246637728, 178416488734084, 178408150054690, 17652164140923912,
    1130084626536965120, 11418382895155328, 11418393903882752, 1129738502266935808),
   (17657572246637706, 178404312309084, 178420326479588, 17652164140923552,
    1130084618499341568, 11418399092295552, 11418377950382080, 1129738510304559872),
   (17657572246637680, 178427696748894, 178396942039654, 17652164140923474,
    1130084633935344128, 11418367986199040, 11418408588576384, 1129738494868557568),
   (17657572246638340, 178382787670284, 178441851119004, 17652164140924530,
    1130084604290988160, 11418427724476032, 11418349748891136, 1129738524512912512),
   (17657572246641280, 178469034140874, 178355604651428, 17652164140927278,
    1130084661222036480, 11418312998999936, 11418462748650240, 1129738467581861504),
   (17657572246651354, 178303400523760, 178521238278704, 17652164140937382,
    1130084551887747456, 11418533325656192, 11418245736178560, 1129738576916141056),
   (17657572246689542, 178621494687464, 178203144153142, 17652164140974822,
    1130084761860772608, 11418110195265280, 11418662501782144, 1129738366943079808),
   (17657572246829736, 178010604990440, 178814033990080, 17652164141112870,
    1130084358614103552, 11418922803828224, 11417862116591232, 1129738770189616128),
   (17657572247347360, 179183799769200, 177640839728898, 17652164141622662,
    1130085133036237952, 11417362214723840, 11419399231090816, 1129737995766991616),
   (17657572249255824, 176930717669626, 179893923736220, 17652164143501792,
    1130083645781608064, 11420359276842368, 11416447251191296, 1129739483019815424),
   (17657572256295112, 181257696092224, 175566952350316, 17652164150433120,
    1130086502002180096, 11414603513587200, 11422116435399296, 1129736626792580864),
   (17657572282255344, 172947890309304, 183876784084064, 17652164175995976,
    1130081016702221056, 11425657275160192, 11411228945903360, 1129742112067970304),
   (17657572378003848, 188906682860158, 167918087246878, 17652164270278604,
    1130091550979525120, 11404428874417920, 11432138025442944, 1129731577700044928),
   (17657572731141616, 158258593789950, 198566529326138, 17652164618009962,
    1130071319980969728, 11445197346434560, 11391982796312704, 1129751808364374272),
   (17657574033584644, 217118271618956, 139708153465140, 17652165900512872,
    1130110172047961856, 11366902776188160, 11469099640333440, 1129712955064688640),
   (17657578837253338, 104083769152154, 252747457849468, 17652170630638472,
    1130035554459420032, 11517265004191104, 11320999152216704, 1129787568106812800),
   (17657596554140492, 321176428670992, 35672508758692, 17652188076283876,
    1130178842568903680, 11228499006348544, 11605421377168128, 1129644263229233920),
   (17657661897543976, -95693495557544, 452607752568470, 17652252419291140,
    1129903615759984128, 11783064665277184, 11059197177665152, 1129919428194086912),
   (17657902896978392, 705075133904914, -347919965321598, 17652489729032912,
    1130432008536747008, 10718037737362176, 12108202184034944, 1129390807324186368),
   (17658791750274968, -832099566299450, 1190143264124070, 17653364973569308,
    1129416614344722048, 12763383457304832, 10093618067672448, 1130405360264525696),
   (17662070010156758, 2122483508748053, -1761162746264664, 17656593035669864,
    1131364310769306112, 8835349916075776, 13962539039891328, 1128454561152702720),
   (17674160776386120, -3542480677500728, 3915887797416906, 17668498581347038,
    1127615227832459392, 16378926210984832, 6532399619030912, 1132192200984785152),
   (17718752449899934, 7370589168517458, -6952606643450362, 17712406020913554,
    1134783372272615680, 1891721467660288, 20801110327694592, 1124981855134426880),
   (17883195303938436, -13461146081308280, 14043511352589184, 17874310275517374,
    1120900850152172288, 29711653622763648, -6599302576341120, 1138708771366336768),
   (18489419871593112, 26995938652670660, -25807571965788720, 18470968064916916,
    1147125127923691776, -23708005983144192, 45998236528453888, 1111911149524529920),
   (20721587157419704, -48929232455444928, 52348923068263952, 20665089243931952,
    1095212222963470848, 78797298848532864, -54874983246105088, 1161717057186776832),
   (28904277263016624, 102597575417068496, -90998603258862144, 28670478564251960,
    1188854673139172864, -117575808112677760, 137761587426070656, 1060405752515704960),
   (58426510110376048, -162272606379173760, 203376179550710784, 57063975677183264,
    990183902763716096, 255808832912049280, -225182254645492224, 1232117779558743296),
   (159364369950301760, 403230788833505472, -261362245456474912, 148570382073546400,
    1293038343537994496, -438785269769924992, 426818223236098752, 845125264282550400)]

/-- A number in these units. -/
def unit (n : Int) : Res (Flt binary64) := Flt.ofRat binary64 (n / 1152921504606846976)

/-- The estimator after `i + 1` updates. -/
def after (k : Kalman (Flt binary64) .two .one) (i : Nat) (s : Int × Int × Int × Int × Int × Int × Int × Int) :
    Res (Kalman (Flt binary64) .two .one) := do
  let t ← Flt.ofRat binary64 (i + 1)
  let p0 ← unit s.1
  let p1 ← unit s.2.1
  let p2 ← unit s.2.2.1
  let p3 ← unit s.2.2.2.1
  let g0 ← unit s.2.2.2.2.1
  let g1 ← unit s.2.2.2.2.2.1
  let g2 ← unit s.2.2.2.2.2.2.1
  let g3 ← unit s.2.2.2.2.2.2.2
  .ok { k with K := some (← Mat.ofList 2 2 [g0, g1, g2, g3]), P := ← Mat.ofList 2 2 [p0, p1, p2, p3], t := t }

/-- Data that are all zero. -/
def still : ColVec (Flt binary64) Dim.one.val × ColVec (Flt binary64) Dim.two.val :=
  (Mat.fill 1 1 CNum.zero, Mat.fill 2 1 CNum.zero)

/-- The first update. -/
def firstOk : Bool := Res.yields (model (Flt.ofRat binary64)) fun k =>
  Res.yields (after k 0 (states.getD 0 0)) fun s => decide (k.update still.1 still.2 = .ok s)

/-- The update number `i + 2`. -/
def nextOk (i : Nat) : Bool := Res.yields (model (Flt.ofRat binary64)) fun k =>
  Res.yields (after k i (states.getD i 0)) fun r =>
    Res.yields (after k (i + 1) (states.getD (i + 1) 0)) fun s => decide (r.update still.1 still.2 = .ok s)

theorem first_ok : firstOk = true := by decide +kernel

private theorem next_ok_0 : (List.range' 0 8).all nextOk = true := by decide +kernel
private theorem next_ok_8 : (List.range' 8 8).all nextOk = true := by decide +kernel
private theorem next_ok_16 : (List.range' 16 8).all nextOk = true := by decide +kernel
private theorem next_ok_24 : (List.range' 24 8).all nextOk = true := by decide +kernel
private theorem next_ok_32 : (List.range' 32 8).all nextOk = true := by decide +kernel
private theorem next_ok_40 : (List.range' 40 8).all nextOk = true := by decide +kernel
private theorem next_ok_48 : (List.range' 48 8).all nextOk = true := by decide +kernel

theorem next_ok (i : Nat) (h : i < 56) : nextOk i = true := by
  have key (a : Nat) (hk : (List.range' a 8).all nextOk = true) (h1 : a ≤ i) (h2 : i < a + 8) : nextOk i = true :=
    List.all_eq_true.1 hk i (List.mem_range'_1.2 ⟨h1, h2⟩)
  rcases (by omega : i < 8 ∨ (8 ≤ i ∧ i < 16) ∨ (16 ≤ i ∧ i < 24) ∨ (24 ≤ i ∧ i < 32) ∨ (32 ≤ i ∧ i < 40) ∨
    (40 ≤ i ∧ i < 48) ∨ 48 ≤ i) with h' | h' | h' | h' | h' | h' | h'
  · exact key 0 next_ok_0 (by omega) (by omega)
  · exact key 8 next_ok_8 (by omega) (by omega)
  · exact key 16 next_ok_16 (by omega) (by omega)
  · exact key 24 next_ok_24 (by omega) (by omega)
  · exact key 32 next_ok_32 (by omega) (by omega)
  · exact key 40 next_ok_40 (by omega) (by omega)
  · exact key 48 next_ok_48 (by omega) (by omega)

private theorem rest {k} (hs : model (Flt.ofRat binary64) = .ok k) (n : Nat) : ∀ (i : Nat) (s), i + n = 56 →
    after k i (states.getD i 0) = .ok s → ∃ s', after k 56 (states.getD 56 0) = .ok s' ∧ s.run (List.replicate n still) = .ok s' := by
  induction n with
  | zero =>
    intro i s hi ha
    obtain rfl : i = 56 := by omega
    exact ⟨s, ha, rfl⟩
  | succ n ih =>
    intro i s hi ha
    have h := next_ok i (by omega)
    unfold nextOk at h
    rw [hs] at h
    simp only [Res.yields] at h
    rw [ha] at h
    simp only at h
    split at h
    · rename_i s' ha'
      have h := of_decide_eq_true h
      obtain ⟨s'', ha'', hr⟩ := ih (i + 1) s' (by omega) ha'
      exact ⟨s'', ha'', by rw [List.replicate_succ]; exact Kalman.run_cons.2 ⟨s', h, hr⟩⟩
    · cases h

/-- 57 updates in `double` lead to the last state of the list. -/
theorem run : ∃ k k', model (Flt.ofRat binary64) = .ok k ∧ k.run (List.replicate 57 still) = .ok k' ∧
    after k 56 (states.getD 56 0) = .ok k' := by
  obtain ⟨k, hs, h⟩ := Res.of_yields first_ok
  obtain ⟨s, ha, h⟩ := Res.of_yields h
  have h := of_decide_eq_true h
  obtain ⟨s', ha', hr⟩ := rest hs 56 0 s rfl ha
  exact ⟨k, s', hs, by rw [List.replicate_succ]; exact Kalman.run_cons.2 ⟨s, h, hr⟩, ha'⟩

/-- The values of a matrix. -/
def vals {n m : Nat} (X : Mat (Flt binary64) n m) : Matrix (Fin n) (Fin m) ℚ := fun i j => (X.get i j).val

/-- The last covariance and gain. -/
def lastOk : Bool := Res.yields (model (Flt.ofRat binary64)) fun k =>
  Res.yields (after k 56 (states.getD 56 0)) fun s => decide (vals k.A = !![1, 1; 0, 1] ∧ vals k.H = !![1, 0; 0, 1] ∧
    vals k.Q = !![1, 1 / 2; 1 / 2, 1] ∧ vals k.R = !![1 / 64, 0; 0, 1 / 64] ∧ vals k.P = !![1, 1 / 2; 1 / 2, 1] ∧ 1 / 3 < (s.P.get 0 1).val ∧ (s.P.get 1 0).val < -1 / 5 ∧
    ∃ G, s.K = some G ∧ 11 / 10 < (G.get 0 0).val ∧ (G.get 0 1).val < -1 / 3 ∧ 1 / 3 < (G.get 1 0).val)

theorem last_ok : lastOk = true := by decide +kernel

end SkewRun
end Verif
