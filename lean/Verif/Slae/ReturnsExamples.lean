import Verif.Slae.Returns
import Verif.Turn.Solved
import Verif.Turn.Examples
import Verif.Tow.Solved
import Verif.Tow.Examples
import Verif.Order.Solved
import Verif.Order.Examples
/-!
# Scenes for which the solver returns and for which it does not: cases for C150, C136, C138 and C146
-/
set_option linter.unusedSectionVars false
namespace Vvflow.Slae
open Vvflow.Flow

/-- The inverse for a body at rest. -/
def stillInv : List ℚ :=
  [1, 0, 0, 0, 0, 0, 0, 0, 0, 0, 0, 0, 128/481, 192/481, 384/481, 384/481, -384/481, 0, 0, 0, 0, 0, 0, 0, 497/481, 24/481, 1491/481,
   48/481, -2934/481, 0, 0, 0, 0, 0, 0, 0, 0, 0, 0, 1, 0, 0, 0, 0, 0, 0, 0, 0, 0, 0, 0, 0, 1, 0, 0, 0, 0, 0, 0, 0, 0, 0, 0, 0, 0, 1,
   0, 0, 0, 0, 0, 0, -512/481, -768/481, -1536/481, 388/481, 1536/481, -8, -1, 0, 0, 0, 0, 0, 1988/481, 96/481, 5964/481, 192/481,
   -9812/481, 8, 0, -1, 0, 0, 0, 0, 2500/481, 864/481, 7500/481, 1336/1443, -35968/1443, 32/3, 0, 0, -1, 0, 0, 0, -512/481,
   -768/481, -1536/481, -1536/481, 1536/481, -16/3, -1, 0, 0, -1, 0, 0, 1988/481, 96/481, 5964/481, 192/481, -11736/481, 16/3, 0,
   -1, 0, 0, -1, 0, 2500/481, 864/481, 7500/481, 1728/481, -13272/481, 16/3, 0, 0, -1, 0, 0, -1]

/-- The same in turned axes. -/
def turnedInv : List ℚ :=
  [1, 0, 0, 0, 0, 0, 0, 0, 0, 0, 0, 0, 128/481, 192/481, 384/481, 2688/2405, 384/2405, 0, 0, 0, 0, 0, 0, 0, 497/481, 24/481,
   1491/481, 2376/481, -1722/481, 0, 0, 0, 0, 0, 0, 0, 0, 0, 0, 1, 0, 0, 0, 0, 0, 0, 0, 0, 0, 0, 0, 0, 1, 0, 0, 0, 0, 0, 0, 0, 0, 0,
   0, 0, 0, 1, 0, 0, 0, 0, 0, 0, -9488/2405, -2688/2405, -28464/2405, -174236/12025, 133152/12025, -56/5, -1, 0, 0, 0, 0, 0,
   3916/2405, -2784/2405, 11748/2405, 99552/12025, -61364/12025, -8/5, 0, -1, 0, 0, 0, 0, 2500/481, 864/481, 7500/481, 29576/1443,
   -20512/1443, 32/3, 0, 0, -1, 0, 0, 0, -9488/2405, -2688/2405, -28464/2405, -222336/12025, 133152/12025, -112/15, -1, 0, 0, -1, 0,
   0, 3916/2405, -2784/2405, 11748/2405, 99552/12025, -109464/12025, -16/15, 0, -1, 0, 0, -1, 0, 2500/481, 864/481, 7500/481,
   58272/2405, -32904/2405, 16/3, 0, 0, -1, 0, 0, -1]

/-- The inverse for a body on a spring. -/
def hungInv : List ℚ :=
  [3415/4424, -171/553, -3027/4424, -342/553, -3/16, -1431/553, 0, -3/16, 0, 0, -3/16, 0, 64/553, 192/553, 192/553, 384/553, 0,
   -256/553, 0, 0, 0, 0, 0, 0, 71/632, -3/79, 213/632, -6/79, 3/16, -75/79, 0, 3/16, 0, 0, 3/16, 0, 0, 0, 0, 1, 0, 0, 0, 0, 0, 0, 0,
   0, 71/632, -3/79, 213/632, -6/79, -1/16, -67/237, 0, -1/16, 0, 0, -1/16, 0, 0, 0, 0, 0, 0, 1, 0, 0, 0, 0, 0, 0, -256/553,
   -768/553, -768/553, 676/553, 0, -1188/553, -1, 0, 0, 0, 0, 0, 71/79, -24/79, 213/79, -48/79, 1/2, 728/237, 0, -1/2, 0, 0, 1/2, 0,
   829/474, -20/79, 355/158, 196/237, 7/12, -392/711, 0, 7/12, -1, 0, 7/12, 0, -256/553, -768/553, -768/553, -3748/553, 0,
   -7988/1659, -1, 0, 0, -1, 0, 0, 0, 0, 0, 0, 1, 0, 0, 0, 0, 0, 0, 0, 545/474, -4/79, 71/158, -340/237, 11/12, -5008/711, 0, 11/12,
   -1, 0, 11/12, -1]

/-- The inverse for two bodies, times 8992974207750. -/
def pairInv : List ℤ :=
  [3659548288500, -1679914080000, -15503917104000, -9341499960000, 32103847152000, 30212583506208, 0, 0, 0, 0, 0, 0, 2990835900000,
   -1635148768500, -2227920552000, -5981671800000, 4455841104000, 13648633994736, 0, 0, 0, 0, 0, 0, 1084487625000, 3110374800000,
   3163455360000, 7122286080000, -996577920000, -13136045508000, 0, 0, 0, 0, 0, 0, -450768240000, -1369334265000, 445208400000,
   901536480000, -890416800000, -2617246667520, 0, 0, 0, 0, 0, 0, 4248938294250, -1430460720000, 12340461744000, 2219213880000,
   -31107269232000, -53048434829208, 0, 0, 0, 0, 0, 0, -2540067660000, -5988491174250, 1782712152000, 5080135320000, -3565424304000,
   -11031387327216, 0, 0, 0, 0, 0, 0, 0, 0, 0, 8992974207750, 0, 0, 0, 0, 0, 0, 0, 0, 0, 0, 0, 0, 0, 0, 0, 0, 0, 0, 0, 0, 0, 0, 0,
   0, 8992974207750, 0, 0, 0, 0, 0, 0, 0, 0, 0, 0, 0, 0, 0, 0, 0, 0, 0, 0, 0, 0, 0, 0, 0, 0, 8992974207750, 0, 0, 0, 0, 0, 0, 0, 0,
   0, 0, 0, 0, 0, 0, 0, 0, 0, 0, -4337950500000, -12441499200000, -12653821440000, 7482752511000, 3986311680000, -19399611630000,
   -8992974207750, 0, 0, 0, 0, 0, 1803072960000, 5477337060000, -1780833600000, -3606145920000, 3561667200000, 10468986670080, 0, 0,
   0, 0, 0, 0, 16995753177000, -5721842880000, 49361846976000, 8876855520000, -88457180097000, -140249945654832, 0, -8992974207750,
   0, 0, 0, 0, -10160270640000, -23953964697000, 7130848608000, 20320541280000, -14261697216000, -44125549308864, 0, 0, 0, 0, 0, 0,
   21333703677000, 6719656320000, 62015668416000, 13384735286000, -104434124054000, -168812863132832, 0, 0, -8992974207750, 0, 0, 0,
   -11963343600000, -29431301757000, 8911682208000, 23926687200000, -17823364416000, -54594535978944, 0, 0, 0, 0, 0, 0,
   -7360232938500, -9942884640000, -20244732768000, -368841256173000, -61426301040000, -83943619056640, -8992974207750, 0, 0,
   -8992974207750, 0, 0, 120519898200000, -14743076029500, 41014998648000, -312983590062000, -82029997296000, 163776622014336,
   -8992974207750, 0, 0, -8992974207750, 0, 0, 18554519568000, -4854170880000, 47152716624000, -92796163200000, -371875111101000,
   -1104548066417072, 0, -8992974207750, 0, 0, -8992974207750, 0, 41543910720000, 54087120906000, 79972822800000, -83087821440000,
   -231889439262000, -86040887826240, 0, -8992974207750, 0, 0, -8992974207750, 0, 32149818070500, 8559401760000, 58560927984000,
   -166618878738000, -1120373462598000, -4685946813977392, 0, 0, -8992974207750, 0, 0, -8992974207750, 127840737960000,
   309050745685500, 330325720920000, -207718946812000, -996389145596000, -465441393018080, 0, -35971896831000, -8992974207750, 0,
   -35971896831000, -8992974207750, -1145262207375, 407735640000, -1345445244000, -32690850660000, 18529432740000, 93041573286900,
   0, 0, 0, 0, 0, 0, 16753160970000, 2413547950125, -7511535486000, -33506321940000, 15023070972000, 12833846634408, 0, 0, 0, 0, 0,
   0, 755570609625, -624653640000, 1897727832000, 58109105340000, 16353153180000, 28126634133660, 0, 0, 0, 0, 0, 0, -29679206310000,
   5055103272375, -10698958062000, 59358412620000, 21397916124000, -38326908836064, 0, 0, 0, 0, 0, 0, 389691597750, 216918000000,
   -552282588000, -25418254680000, -34882585920000, -157140104251560, 0, 0, 0, 0, 0, 0, 12926045340000, 1524322985250,
   18210493548000, -25852090680000, -36420987096000, -10478834629344, 0, 0, 0, 0, 0, 0, 0, 0, 0, 8992974207750, 0, 0, 0, 0, 0, 0, 0,
   0, 0, 0, 0, 8992974207750, 0, 0, 0, 0, 0, 0, 0, 0, 0, 0, 0, 0, 8992974207750, 35971896831000, 0, 0, 0, 0, 0, 0, 0, 0, 0, 0,
   8992974207750, 0, 0, 0, 0, 0, 0, 0, 0, 0, 0, 0, 0, 8992974207750, 0, 0, 0, 0, 0, 0, 0, 0, 0, 0, 0, 8992974207750, 0, 0, 0, 0, 0,
   0, -3022282438500, 2498614560000, -7590911328000, -196464524529000, -65412612720000, -184450330196640, 0, 0, 0, 0, 0, 0,
   118716825240000, -20220413089500, 42795832248000, -201461753649000, -85591664496000, 81363841682256, -8992974207750, 0, 0, 0, 0,
   0, 1558766391000, 867672000000, -2209130352000, -101673018720000, -103558446849000, -412729036020240, 0, 0, 0, 0, 0, 0,
   51704181360000, 78041085603000, 72841974192000, -103408362720000, -109712051553000, 30028455144624, 0, -8992974207750, 0, 0, 0,
   0, 4581048829500, -1630942560000, 5381780976000, 106782138086000, -50136466406000, -324203764039600, 0, 0, 0, 0, 0, 0,
   -67012643880000, 26317705030500, 30046141944000, 110044023206000, -36111019334000, -99297915645632, 0, 0, -8992974207750, 0, 0,
   0, -3022282438500, 2498614560000, -7590911328000, -304380215022000, -65412612720000, -112506536534640, 0, 0, 0, 0, 0, 0,
   118716825240000, -20220413089500, 42795832248000, -309377444142000, -85591664496000, 153307635344256, -8992974207750, 0, 0,
   -8992974207750, 0, 0, 1558766391000, 867672000000, -2209130352000, -101673018720000, -211474137342000, -916335591654240, 0, 0, 0,
   0, 0, 0, 51704181360000, 78041085603000, 72841974192000, -103408362720000, -217627742046000, -41915338517376, 0, -8992974207750,
   0, 0, -8992974207750, 0, 4581048829500, -1630942560000, 5381780976000, 178725931748000, -122080260068000, -755866526011600, 0, 0,
   0, 0, 0, 0, -67012643880000, 26317705030500, 30046141944000, 181987816868000, -108054812996000, -243185502969632, 0, 0,
   -8992974207750, 0, 0, -8992974207750]

/-- The same for the other order, times 8992974207750. -/
def pairInv2 : List ℤ :=
  [16753160970000, 1268285742750, -7511535486000, -33506321940000, 15023070972000, 12833846634408, 0, 0, 0, 0, 0, 0, -2413547950125,
   407735640000, -1345445244000, -32690850660000, 18529432740000, 93041573286900, 0, 0, 0, 0, 0, 0, -29679206310000, 5810673882000,
   -10698958062000, 59358412620000, 21397916124000, -38326908836064, 0, 0, 0, 0, 0, 0, -5055103272375, -624653640000, 1897727832000,
   58109105340000, 16353153180000, 28126634133660, 0, 0, 0, 0, 0, 0, 12926045340000, 1914014583000, 18210493548000, -25852090680000,
   -36420987096000, -10478834629344, 0, 0, 0, 0, 0, 0, -1524322985250, 216918000000, -552282588000, -25418254680000,
   -34882585920000, -157140104251560, 0, 0, 0, 0, 0, 0, 0, 0, 0, 8992974207750, 0, 0, 0, 0, 0, 0, 0, 0, 0, 0, 0, 8992974207750, 0,
   0, 0, 0, 0, 0, 0, 0, 0, 0, 0, 0, 8992974207750, 0, 0, 0, 0, 0, 0, 0, 0, 0, 0, 0, 8992974207750, 35971896831000, 0, 0, 0, 0, 0, 0,
   0, 0, 0, 0, 0, 8992974207750, 0, 0, 0, 0, 0, 0, 0, 0, 0, 0, 0, 8992974207750, 0, 0, 0, 0, 0, 0, 118716825240000, -23242695528000,
   42795832248000, -201461753649000, -85591664496000, 81363841682256, -8992974207750, 0, 0, 0, 0, 0, 20220413089500, 2498614560000,
   -7590911328000, -196464524529000, -65412612720000, -184450330196640, 0, 0, 0, 0, 0, 0, 51704181360000, 79599851994000,
   72841974192000, -103408362720000, -109712051553000, 30028455144624, 0, -8992974207750, 0, 0, 0, 0, -78041085603000, 867672000000,
   -2209130352000, -101673018720000, -103558446849000, -412729036020240, 0, 0, 0, 0, 0, 0, -67012643880000, 30898753860000,
   30046141944000, 110044023206000, -36111019334000, -99297915645632, 0, 0, -8992974207750, 0, 0, 0, -26317705030500,
   -1630942560000, 5381780976000, 106782138086000, -50136466406000, -324203764039600, 0, 0, 0, 0, 0, 0, 118716825240000,
   -23242695528000, 42795832248000, -309377444142000, -85591664496000, 153307635344256, -8992974207750, 0, 0, -8992974207750, 0, 0,
   20220413089500, 2498614560000, -7590911328000, -304380215022000, -65412612720000, -112506536534640, 0, 0, 0, 0, 0, 0,
   51704181360000, 79599851994000, 72841974192000, -103408362720000, -217627742046000, -41915338517376, 0, -8992974207750, 0, 0,
   -8992974207750, 0, -78041085603000, 867672000000, -2209130352000, -101673018720000, -211474137342000, -916335591654240, 0, 0, 0,
   0, 0, 0, -67012643880000, 30898753860000, 30046141944000, 181987816868000, -108054812996000, -243185502969632, 0, 0,
   -8992974207750, 0, 0, -8992974207750, -26317705030500, -1630942560000, 5381780976000, 178725931748000, -122080260068000,
   -755866526011600, 0, 0, 0, 0, 0, 0, 2990835900000, 2024399520000, -2227920552000, -5981671800000, 4455841104000, 13648633994736,
   0, 0, 0, 0, 0, 0, 1635148768500, -1679914080000, -15503917104000, -9341499960000, 32103847152000, 30212583506208, 0, 0, 0, 0, 0,
   0, -450768240000, -284846640000, 445208400000, 901536480000, -890416800000, -2617246667520, 0, 0, 0, 0, 0, 0, 1369334265000,
   3110374800000, 3163455360000, 7122286080000, -996577920000, -13136045508000, 0, 0, 0, 0, 0, 0, -2540067660000, -1739552880000,
   1782712152000, 5080135320000, -3565424304000, -11031387327216, 0, 0, 0, 0, 0, 0, 5988491174250, -1430460720000, 12340461744000,
   2219213880000, -31107269232000, -53048434829208, 0, 0, 0, 0, 0, 0, 0, 0, 0, 0, 0, 0, 0, 0, 0, 0, 0, 0, 0, 0, 0, 8992974207750, 0,
   0, 0, 0, 0, 0, 0, 0, 0, 0, 0, 0, 0, 0, 0, 0, 0, 0, 0, 0, 0, 0, 0, 0, 8992974207750, 0, 0, 0, 0, 0, 0, 0, 0, 0, 0, 0, 0, 0, 0, 0,
   0, 0, 0, 0, 0, 0, 0, 0, 0, 8992974207750, 0, 0, 0, 0, 0, 0, 1803072960000, 1139386560000, -1780833600000, -3606145920000,
   3561667200000, 10468986670080, 0, 0, 0, 0, 0, 0, -5477337060000, -12441499200000, -12653821440000, 7482752511000, 3986311680000,
   -19399611630000, -8992974207750, 0, 0, 0, 0, 0, -10160270640000, -6958211520000, 7130848608000, 20320541280000, -14261697216000,
   -44125549308864, 0, 0, 0, 0, 0, 0, 23953964697000, -5721842880000, 49361846976000, 8876855520000, -88457180097000,
   -140249945654832, 0, -8992974207750, 0, 0, 0, 0, -11963343600000, -8097598080000, 8911682208000, 23926687200000, -17823364416000,
   -54594535978944, 0, 0, 0, 0, 0, 0, 29431301757000, 6719656320000, 62015668416000, 13384735286000, -104434124054000,
   -168812863132832, 0, 0, -8992974207750, 0, 0, 0, 120519898200000, -22103308968000, 41014998648000, -312983590062000,
   -82029997296000, 163776622014336, -8992974207750, 0, 0, -8992974207750, 0, 0, 14743076029500, -9942884640000, -20244732768000,
   -368841256173000, -61426301040000, -83943619056640, -8992974207750, 0, 0, -8992974207750, 0, 0, 41543910720000, 72641640474000,
   79972822800000, -83087821440000, -231889439262000, -86040887826240, 0, -8992974207750, 0, 0, -8992974207750, 0, -54087120906000,
   -4854170880000, 47152716624000, -92796163200000, -371875111101000, -1104548066417072, 0, -8992974207750, 0, 0, -8992974207750, 0,
   127840737960000, 341200563756000, 330325720920000, -207718946812000, -996389145596000, -465441393018080, 0, -35971896831000,
   -8992974207750, 0, -35971896831000, -8992974207750, -309050745685500, 8559401760000, 58560927984000, -166618878738000,
   -1120373462598000, -4685946813977392, 0, 0, -8992974207750, 0, 0, -8992974207750]

theorem hashed12 (e : Env ℚ) (hlen : (unknowns e).length = 12) : Hashed (fun _ _ => 1) e := by
  intro a _
  rw [hlen]
  have : Mat.bytesOf (fun (_ : ℚ) _ => 1) a = fun _ => 1 := rfl
  unfold Mat.bodyHash
  rw [this]
  decide +kernel

theorem noSelf_one (b : Body ℚ) (h : b.root = none) : NoSelf [b] := by
  intro j c hj
  have : c ∈ [b] := List.mem_of_getElem? hj
  rw [List.mem_singleton] at this
  subst this
  rw [h]
  simp

theorem still_regular : Nonsingular (flow [Shift.still] 0) none :=
  nonsingular_of_table _ (noSelf_one _ rfl) (fun k => stillInv.getD k 0) 12 (by decide +kernel) (by decide +kernel)

theorem turned_regular : Nonsingular (Turn.env Turn.axes (flow [Shift.still] 0)) none :=
  nonsingular_of_table _ (noSelf_one _ rfl) (fun k => turnedInv.getD k 0) 12 (by decide +kernel) (by decide +kernel)

/-- The solver returns for a body with a Kutta condition at rest. -/
theorem still_call : ∃ c x, Call (Mat.exactLapack ℚ) (fun _ _ => 1) (flow [Shift.still] 0) none c x :=
  (C150_iff _ _ none (noSelf_one _ rfl) fun _ => hashed12 _ (by decide +kernel)).2 still_regular

/-- It does so in turned axes; the hypotheses of `C136_solved`, and its use. -/
example : ∃ c c' x y, Call (Mat.exactLapack ℚ) (fun _ _ => 1) (flow [Shift.still] 0) none c x ∧
    Call (Mat.exactLapack ℚ) (fun _ _ => 1) (Turn.env Turn.axes (flow [Shift.still] 0)) none c' y ∧ y (.hyd 0 0) ≠ x (.hyd 0 0) ∧
    ∀ u ∈ unknowns (Turn.env Turn.axes (flow [Shift.still] 0)), y u = Turn.unk Turn.axes x u := by
  obtain ⟨c, x, h⟩ := still_call
  obtain ⟨c', y, h'⟩ := (C150_iff (fun _ _ => 1) _ none (noSelf_one _ rfl) fun _ => hashed12 _ (by decide +kernel)).2 turned_regular
  have hxy := Turn.C136_solved Turn.unit_axes _ sure_exact (fun b hb => by
    have : b = Shift.still := by simpa [flow] using hb
    subst this
    exact ⟨.inl (by decide +kernel), .inl (by decide +kernel)⟩) (noSelf_one _ rfl) h h'
  refine ⟨c, c', x, y, h, h', ?_, hxy⟩
  have hx := still_regular.determined x Shift.stillSol (h.solves (noSelf_one _ rfl)) (by unfold Solves; decide +kernel)
  rw [hxy (.hyd 0 0) (by decide +kernel)]
  simp only [Turn.unk, hx (.hyd 0 0) (by decide +kernel), hx (.hyd 0 1) (by decide +kernel)]
  decide +kernel

theorem hung_regular : Nonsingular (flow [Tow.hung 0] 1) none :=
  nonsingular_of_table _ (noSelf_one _ rfl) (fun k => hungInv.getD k 0) 12 (by decide +kernel) (by decide +kernel)

theorem towed_regular : Nonsingular (Tow.env ⟨5, 3⟩ (flow [Tow.hung 0] 1)) none :=
  nonsingular_of_table _ (noSelf_one _ rfl) (fun k => hungInv.getD k 0) 12 (by decide +kernel) (by decide +kernel)

/-- The hypotheses of `C146_solved_partial`, and its use: a body on a spring. -/
example : ∃ c c' x y, Call (Mat.exactLapack ℚ) (fun _ _ => 1) (flow [Tow.hung 0] 1) none c x ∧
    Call (Mat.exactLapack ℚ) (fun _ _ => 1) (Tow.env ⟨5, 3⟩ (flow [Tow.hung 0] 1)) none c' y ∧
    ∀ u ∈ unknowns (Tow.env ⟨5, 3⟩ (flow [Tow.hung 0] 1)), y u = Tow.sol ⟨5, 3⟩ x u := by
  obtain ⟨c, x, h⟩ := (C150_iff (fun _ _ => 1) _ none (noSelf_one _ rfl) fun _ => hashed12 _ (by decide +kernel)).2 hung_regular
  obtain ⟨c', y, h'⟩ := (C150_iff (fun _ _ => 1) _ none (noSelf_one _ rfl) fun _ => hashed12 _ (by decide +kernel)).2 towed_regular
  exact ⟨c, c', x, y, h, h', Tow.C146_solved_partial ⟨5, 3⟩ _ sure_exact (by decide +kernel) (by
    intro b hb
    rcases List.mem_singleton.1 hb with rfl
    exact fun h => absurd rfl h) (by unfold Tow.Undamped; decide +kernel) (noSelf_one _ rfl) h h'⟩

theorem noSelf_two (a b : Body ℚ) (ha : a.root ≠ some 0) (hb : b.root ≠ some 1) : NoSelf [a, b] := by
  intro j c hj
  match j, hj with
  | 0, hj => cases hj; exact ha
  | 1, hj => cases hj; exact hb

theorem noSelf_pair : NoSelf (Order.pair (-1) (-2)).space.bodies := noSelf_two _ _ (by decide +kernel) (by decide +kernel)
theorem noSelf_pair' : NoSelf (Order.pair' (-1) (-2)).space.bodies := noSelf_two _ _ (by decide +kernel) (by decide +kernel)

theorem pair_regular : Nonsingular (Order.pair (-1) (-2)) none :=
  nonsingular_of_table _ noSelf_pair (fun k => pairInv.getD k 0 / 8992974207750) 24 (by decide +kernel) (by decide +kernel)

theorem pair_regular' : Nonsingular (Order.pair' (-1) (-2)) none :=
  nonsingular_of_table _ noSelf_pair' (fun k => pairInv2.getD k 0 / 8992974207750) 24 (by decide +kernel) (by decide +kernel)

/-- The hypotheses of `C138_solved_partial`, and its use: two bodies, one mounted on the other. -/
example : ∃ c c' x y, Call (Mat.exactLapack ℚ) (fun _ _ => 1) (Order.pair (-1) (-2)) none c x ∧
    Call (Mat.exactLapack ℚ) (fun _ _ => 1) (Order.pair' (-1) (-2)) none c' y ∧
    ∀ u ∈ unknowns (Order.pair (-1) (-2)), y (Order.ren Order.sw u) = x u := by
  have hu : ∀ {p : Prop}, useInverse (Order.pair (-1) (-2)) none = true → p := fun h => absurd h (by decide +kernel)
  have hu' : ∀ {p : Prop}, useInverse (Order.pair' (-1) (-2)) none = true → p := fun h => absurd h (by decide +kernel)
  obtain ⟨c, x, h⟩ := (C150_iff (fun _ _ => 1) _ none noSelf_pair hu).2 pair_regular
  obtain ⟨c', y, h'⟩ := (C150_iff (fun _ _ => 1) _ none noSelf_pair' hu').2 pair_regular'
  exact ⟨c, c', x, y, h, h', Order.C138_solved_partial sure_exact (Order.same_pair _ _) (.inl ⟨by decide +kernel, by decide +kernel⟩) noSelf_pair
    noSelf_pair' h h'⟩

/-- Circulations on two bodies at the same place that cancel each other, and forces that would belong to them. -/
def cancelled : Unk → ℚ := values (flow [base, base] 0)
  [0, 1/4, -1/4, 0, 0, 0, -1, -1, 0, -1, -1, 0, 0, -1/4, 1/4, 0, 0, 0, 1, 1, 0, 1, 1, 0]

/-- The equations of two bodies at the same place are singular, and the program ends with a message. -/
theorem twice_singular : ¬ Nonsingular (flow [base, base] 0) none := by
  intro h
  have h0 : ∀ g ∈ groups (flow [base, base] 0) false none 0 false (flow [base, base] 0).bodies,
      ((g.2.filterMap asPair).map fun c => c.2 * cancelled c.1).sum = 0 := by decide +kernel
  have := h cancelled h0 (.hyd 0 0) (by decide +kernel)
  revert this
  decide +kernel

/-- The hypotheses of `C150_direct` for them: the first step. -/
example (order : List (List (Write ℚ)) → List (Write ℚ)) (ho : ∀ ls, Interleaves ls (order ls)) (junk : ℕ → ℚ) :
    calcCirculation ⟨Mat.exactLapack ℚ, fun _ _ => 1, ⟨junk, Mat.transposePairs 24, List.range 24⟩, order⟩ (flow [base, base] 0) none
      (Mat.init junk) (fun _ => 0) = .error := by
  have hl : (unknowns (flow [base, base] 0)).length = 24 := by decide +kernel
  refine ((C150_direct able_exact sure_exact (noSelf_two _ _ (by decide +kernel) (by decide +kernel)) (.start junk fun _ => 0) (by
    rw [hl]; exact ⟨.refl _, .refl _⟩) ho (by decide +kernel)).resolve_left fun h => twice_singular h.1).2

end Vvflow.Slae
