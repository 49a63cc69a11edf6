import Verif.Lemmas.Burke
import Mathlib.Analysis.Calculus.Deriv.Pow
import Mathlib.Analysis.Calculus.Deriv.Mul
import Mathlib.Analysis.Calculus.Deriv.Add
import Mathlib.Tactic.LinearCombination

/-!
# Polynomial bounds for the thermodynamic tables of `Burke2012`

Each bound is certified by the Bernstein form of the polynomial on the temperature interval.
-/

namespace Fub

section
variable {K : Type*} [Field K] [LinearOrder K] [IsStrictOrderedRing K]

/-- A polynomial of degree four with non-negative Bernstein coefficients is non-negative. -/
theorem bern4 (b0 b1 b2 b3 b4 x y : K) (h0 : 0 ≤ b0) (h1 : 0 ≤ b1) (h2 : 0 ≤ b2) (h3 : 0 ≤ b3)
    (h4 : 0 ≤ b4) (hx : 0 ≤ x) (hy : 0 ≤ y) :
    0 ≤ b0 * y ^ 4 + b1 * x * y ^ 3 + b2 * x ^ 2 * y ^ 2 + b3 * x ^ 3 * y + b4 * x ^ 4 := by
  positivity

/-- Molar heat capacities up to 1000 K. -/
theorem burkeCpLow_bound (T : K) (h1 : 299.999999 ≤ T) (h2 : T ≤ 1000) (i : BSp) :
    2.4 * 8314.462175 ≤ burkeCpLow T i * burkeMolarMass i := by
  have hx : 0 ≤ T - 299.999999 := sub_nonneg.mpr h1
  have hy : 0 ≤ 1000 - T := sub_nonneg.mpr h2
  cases i
  · have e := bern4 (K := K) (145932326356541864000317017234345435861678129755217 / 3841600021952000047040000044800000016000000000000000000000)
      (610685464573644938652427929747044172872313 / 3841600021952000047040000044800000016000000000000)
      (4715145090875641056430145865411789 / 19208000109760000235200000224000000080000)
      (47580135678694575316623337500 / 240100001372000002940000002800000001)
      (12807223334317687500000000000 / 240100001372000002940000002800000001)
      (T - 299.999999) (1000 - T) (by norm_num) (by norm_num) (by norm_num) (by norm_num)
      (by norm_num) hx hy
    simp only [burkeCpLow, burkeMolarMass]
    linear_combination e
  · have e := bern4 (K := K) (831446203620000000000000000 / 240100001372000002940000002800000001)
      (3325784814480000000000000000 / 240100001372000002940000002800000001)
      (4988677221720000000000000000 / 240100001372000002940000002800000001)
      (3325784814480000000000000000 / 240100001372000002940000002800000001)
      (831446203620000000000000000 / 240100001372000002940000002800000001)
      (T - 299.999999) (1000 - T) (by norm_num) (by norm_num) (by norm_num) (by norm_num)
      (by norm_num) hx hy
    simp only [burkeCpLow, burkeMolarMass]
    linear_combination e
  · have e := bern4 (K := K) (831446217600000000000000000 / 240100001372000002940000002800000001)
      (3325784870400000000000000000 / 240100001372000002940000002800000001)
      (4988677305600000000000000000 / 240100001372000002940000002800000001)
      (3325784870400000000000000000 / 240100001372000002940000002800000001)
      (831446217600000000000000000 / 240100001372000002940000002800000001)
      (T - 299.999999) (1000 - T) (by norm_num) (by norm_num) (by norm_num) (by norm_num)
      (by norm_num) hx hy
    simp only [burkeCpLow, burkeMolarMass]
    linear_combination e
  · have e := bern4 (K := K) (1465097355411513365596721631736791285131044909824789 / 37515625214375000459375000437500000156250000000000000000000)
      (6808126885090970894923331895835714838760789 / 37515625214375000459375000437500000156250000000000)
      (5859349091322157750155374547897087 / 18757812607187500229687500218750000078125)
      (57535983645527638077143289600 / 240100001372000002940000002800000001)
      (14981235744735033600000000000 / 240100001372000002940000002800000001)
      (T - 299.999999) (1000 - T) (by norm_num) (by norm_num) (by norm_num) (by norm_num)
      (by norm_num) hx hy
    simp only [burkeCpLow, burkeMolarMass]
    linear_combination e
  · have e := bern4 (K := K) (75592356602941054194362784029600613951700505977791 / 9378906303593750114843750109375000039062500000000000000000)
      (685398411453276777189441193212938588350089 / 37515625214375000459375000437500000156250000000000)
      (998594391575270525924650308808629 / 37515625214375000459375000437500000156250)
      (4123418009513912583811257600 / 240100001372000002940000002800000001)
      (960499976111001600000000000 / 240100001372000002940000002800000001)
      (T - 299.999999) (1000 - T) (by norm_num) (by norm_num) (by norm_num) (by norm_num)
      (by norm_num) hx hy
    simp only [burkeCpLow, burkeMolarMass]
    linear_combination e
  · have e := bern4 (K := K) (1565851951957393010820602586116673211209530766614033923 / 37515625214375000459375000437500000156250000000000000000000000)
      (5670728518719835094758078958649902533910934399 / 37515625214375000459375000437500000156250000000000000)
      (2289818039861004482239515469760133233 / 9378906303593750114843750109375000039062500)
      (38967811724264016047753503296 / 240100001372000002940000002800000001)
      (10736801632130353363200000000 / 240100001372000002940000002800000001)
      (T - 299.999999) (1000 - T) (by norm_num) (by norm_num) (by norm_num) (by norm_num)
      (by norm_num) hx hy
    simp only [burkeCpLow, burkeMolarMass]
    linear_combination e
  · have e := bern4 (K := K) (34852893947976412569141529149368454747863140516653123 / 937890630359375011484375010937500003906250000000000000000000)
      (5899694729452343689564009782534461710712200269 / 37515625214375000459375000437500000156250000000000000)
      (4451937495196445056561930773881111199 / 18757812607187500229687500218750000078125000)
      (187648238504936381044489387104 / 1200500006860000014700000014000000005)
      (10205998661594242982400000000 / 240100001372000002940000002800000001)
      (T - 299.999999) (1000 - T) (by norm_num) (by norm_num) (by norm_num) (by norm_num)
      (by norm_num) hx hy
    simp only [burkeCpLow, burkeMolarMass]
    linear_combination e
  · have e := bern4 (K := K) (105571732511379712734244994548459759294448821289489521 / 1875781260718750022968750021875000007812500000000000000000000)
      (1920674010889795815369177771399293525586791747 / 7503125042875000091875000087500000031250000000000000)
      (3045408264296577982156305020326269783 / 7503125042875000091875000087500000031250000)
      (75869444817189404857988777056 / 240100001372000002940000002800000001)
      (21360859359728598304000000000 / 240100001372000002940000002800000001)
      (T - 299.999999) (1000 - T) (by norm_num) (by norm_num) (by norm_num) (by norm_num)
      (by norm_num) hx hy
    simp only [burkeCpLow, burkeMolarMass]
    linear_combination e
  · have e := bern4 (K := K) (831446180000000000000000000 / 240100001372000002940000002800000001)
      (3325784720000000000000000000 / 240100001372000002940000002800000001)
      (4988677080000000000000000000 / 240100001372000002940000002800000001)
      (3325784720000000000000000000 / 240100001372000002940000002800000001)
      (831446180000000000000000000 / 240100001372000002940000002800000001)
      (T - 299.999999) (1000 - T) (by norm_num) (by norm_num) (by norm_num) (by norm_num)
      (by norm_num) hx hy
    simp only [burkeCpLow, burkeMolarMass]
    linear_combination e
  · have e := bern4 (K := K) (11699439439528365067028004585363204989394643374454274401 / 187578126071875002296875002187500000781250000000000000000000000)
      (57686803899785450428461816752655873300763244331 / 187578126071875002296875002187500000781250000000000000)
      (233274449820719491061327990843889282257 / 375156252143750004593750004375000001562500000)
      (497712336453268046018276430648 / 1200500006860000014700000014000000005)
      (27660789145040259111680000000 / 240100001372000002940000002800000001)
      (T - 299.999999) (1000 - T) (by norm_num) (by norm_num) (by norm_num) (by norm_num)
      (by norm_num) hx hy
    simp only [burkeCpLow, burkeMolarMass]
    linear_combination e
  · have e := bern4 (K := K) (7382408840805013023476576318883480436672533063860511 / 75031250428750000918750000875000000312500000000000000000000)
      (98823707071591690509022548339865955128603601 / 187578126071875002296875002187500000781250000000000)
      (3525184180522511384924713902339672859 / 3751562521437500045937500043750000015625000)
      (161501318819083707875729689728 / 240100001372000002940000002800000001)
      (43694059298139273536000000000 / 240100001372000002940000002800000001)
      (T - 299.999999) (1000 - T) (by norm_num) (by norm_num) (by norm_num) (by norm_num)
      (by norm_num) hx hy
    simp only [burkeCpLow, burkeMolarMass]
    linear_combination e

/-- Molar heat capacities from 1000 K to 5000 K. -/
theorem burkeCpHigh_bound (T : K) (h1 : 1000 ≤ T) (h2 : T ≤ 5000) (i : BSp) :
    2.4 * 8314.462175 ≤ burkeCpHigh T i * burkeMolarMass i := by
  have hx : 0 ≤ T - 1000 := sub_nonneg.mpr h1
  have hy : 0 ≤ 5000 - T := sub_nonneg.mpr h2
  cases i
  · have e := bern4 (K := K) (1024579828293328377 / 20480000000000000000000000000)
      (288316352910798057 / 1024000000000000000000000000)
      (6315191190193251 / 16384000000000000000000000)
      (11471337711733353 / 40960000000000000000000000)
      (3669671013897 / 52428800000000000000000)
      (T - 1000) (5000 - T) (by norm_num) (by norm_num) (by norm_num) (by norm_num)
      (by norm_num) hx hy
    simp only [burkeCpHigh, burkeMolarMass]
    linear_combination e
  · have e := bern4 (K := K) (41572310181 / 12800000000000000000000)
      (41572310181 / 3200000000000000000000)
      (124716930543 / 6400000000000000000000)
      (41572310181 / 3200000000000000000000)
      (41572310181 / 12800000000000000000000)
      (T - 1000) (5000 - T) (by norm_num) (by norm_num) (by norm_num) (by norm_num)
      (by norm_num) hx hy
    simp only [burkeCpHigh, burkeMolarMass]
    linear_combination e
  · have e := bern4 (K := K) (259826943 / 80000000000000000000)
      (259826943 / 20000000000000000000)
      (779480829 / 40000000000000000000)
      (259826943 / 20000000000000000000)
      (259826943 / 80000000000000000000)
      (T - 1000) (5000 - T) (by norm_num) (by norm_num) (by norm_num) (by norm_num)
      (by norm_num) hx hy
    simp only [burkeCpHigh, burkeMolarMass]
    linear_combination e
  · have e := bern4 (K := K) (3745311586418577 / 64000000000000000000000000)
      (114962710407120939 / 400000000000000000000000000)
      (75170205766208763 / 160000000000000000000000000)
      (27115331133444771 / 80000000000000000000000000)
      (5668178546322201 / 64000000000000000000000000)
      (T - 1000) (5000 - T) (by norm_num) (by norm_num) (by norm_num) (by norm_num)
      (by norm_num) hx hy
    simp only [burkeCpHigh, burkeMolarMass]
    linear_combination e
  · have e := bern4 (K := K) (75038566182999471 / 20000000000000000000000000000)
      (24338143903187199 / 2000000000000000000000000000)
      (9058138100898771 / 500000000000000000000000000)
      (1644893446377561 / 80000000000000000000000000)
      (1156837633069677 / 160000000000000000000000000)
      (T - 1000) (5000 - T) (by norm_num) (by norm_num) (by norm_num) (by norm_num)
      (by norm_num) hx hy
    simp only [burkeCpHigh, burkeMolarMass]
    linear_combination e
  · have e := bern4 (K := K) (209703156981476741221 / 5000000000000000000000000000000)
      (124451728433552119933 / 500000000000000000000000000000)
      (2524141850361958597 / 6250000000000000000000000000)
      (5622925086536536819 / 20000000000000000000000000000)
      (2926874520831695687 / 40000000000000000000000000000)
      (T - 1000) (5000 - T) (by norm_num) (by norm_num) (by norm_num) (by norm_num)
      (by norm_num) hx hy
    simp only [burkeCpHigh, burkeMolarMass]
    linear_combination e
  · have e := bern4 (K := K) (7973441157238170087 / 200000000000000000000000000000)
      (23300297814045536133 / 100000000000000000000000000000)
      (4210725115990075401 / 10000000000000000000000000000)
      (1186302968134593819 / 4000000000000000000000000000)
      (130877975080598937 / 1600000000000000000000000000)
      (T - 1000) (5000 - T) (by norm_num) (by norm_num) (by norm_num) (by norm_num)
      (by norm_num) hx hy
    simp only [burkeCpHigh, burkeMolarMass]
    linear_combination e
  · have e := bern4 (K := K) (333763425157316862787 / 4000000000000000000000000000000)
      (109493524121017884367 / 200000000000000000000000000000)
      (68431077400786918321 / 80000000000000000000000000000)
      (4789084220298538311 / 8000000000000000000000000000)
      (4932190664577545343 / 32000000000000000000000000000)
      (T - 1000) (5000 - T) (by norm_num) (by norm_num) (by norm_num) (by norm_num)
      (by norm_num) hx hy
    simp only [burkeCpHigh, burkeMolarMass]
    linear_combination e
  · have e := bern4 (K := K) (41572309 / 12800000000000000000)
      (41572309 / 3200000000000000000)
      (124716927 / 6400000000000000000)
      (41572309 / 3200000000000000000)
      (41572309 / 12800000000000000000)
      (T - 1000) (5000 - T) (by norm_num) (by norm_num) (by norm_num) (by norm_num)
      (by norm_num) hx hy
    simp only [burkeCpHigh, burkeMolarMass]
    linear_combination e
  · have e := bern4 (K := K) (1728799298960072195153 / 16000000000000000000000000000000)
      (477968073345671609049 / 800000000000000000000000000000)
      (1534813239843820929583 / 1600000000000000000000000000000)
      (564872189184963082753 / 800000000000000000000000000000)
      (93774050540029285129 / 640000000000000000000000000000)
      (T - 1000) (5000 - T) (by norm_num) (by norm_num) (by norm_num) (by norm_num)
      (by norm_num) hx hy
    simp only [burkeCpHigh, burkeMolarMass]
    linear_combination e
  · have e := bern4 (K := K) (3413598486597907841 / 20000000000000000000000000000)
      (946984879178533733 / 1000000000000000000000000000)
      (548837790428675307 / 400000000000000000000000000)
      (191033303562617009 / 200000000000000000000000000)
      (192274133110366153 / 800000000000000000000000000)
      (T - 1000) (5000 - T) (by norm_num) (by norm_num) (by norm_num) (by norm_num)
      (by norm_num) hx hy
    simp only [burkeCpHigh, burkeMolarMass]
    linear_combination e

end

/-- Coefficients of the enthalpy polynomials (`burkeHLow`). -/
noncomputable def burkeHLowCoeff : BSp → Fin 6 → ℝ
  | .N2 => ![(-4846957557 / 16000),
      (1566122775321 / 1600000000),
      (8357429119 / 40000000000),
      (-313605133101 / 800000000000000),
      (535687800219 / 1280000000000000000),
      (-232150228583 / 1600000000000000000000)]
  | .AR => ![(-620545933669 / 4000000),
      (104066063 / 200000),
      0,
      0,
      0,
      0]
  | .H => ![(1050510437359197 / 5000000),
      (412423719 / 20000),
      0,
      0,
      0,
      0]
  | .O2 => ![(-261190774623807 / 1000000000),
      (104350917366831 / 125000000000),
      (146475620327649 / 1000000000000000),
      (-49853428684923981 / 1000000000000000000000),
      (341380644388011 / 4000000000000000000000),
      (-1139153290175211 / 25000000000000000000000000)]
  | .O => ![(189333554921613 / 12500000),
      (765561639836547 / 500000000000),
      (-212819831953269 / 500000000000000),
      (209683114575000981 / 500000000000000000000),
      (-416461796798949 / 2000000000000000000000),
      (126363455977791 / 3125000000000000000000000)]
  | .OH => ![(4089657905507287 / 2500000000),
      (5041700585674839 / 2500000000000),
      (-197097520358553 / 250000000000000),
      (265923257653377 / 250000000000000000),
      (-1771655686231989 / 2500000000000000000000),
      (2520509297473221 / 12500000000000000000000000)]
  | .H2 => ![(-417587676385599 / 100000000),
      (340056141450789 / 25000000000),
      (1701132774657399 / 1000000000000000),
      (-111945750868284927 / 100000000000000000000),
      (-1953946864709523 / 20000000000000000000000),
      (213164910978621 / 625000000000000000000000)]
  | .H2O => ![(-1394117383798929 / 100000000),
      (781521139253719 / 500000000000),
      (801859635473449 / 1000000000000000),
      (-122196657376081 / 125000000000000000),
      (3216030368172959 / 4000000000000000000000),
      (-289200309521333 / 1250000000000000000000000)]
  | .HE => ![(-619739223251 / 400000),
      (103930777 / 20000),
      0,
      0,
      0,
      0]
  | .HO2 => ![(928248565969567 / 12500000000),
      (54179497056772767 / 50000000000000),
      (-1196267047192247 / 2000000000000000),
      (88826847038780601 / 50000000000000000000),
      (-15287590967647149 / 10000000000000000000000),
      (936258742190767 / 2000000000000000000000000)]
  | .H2O2 => ![(-4317368074937 / 1000000),
      (20707657373423 / 25000000000),
      (40142566033587 / 50000000000000),
      (-6049645460321867 / 500000000000000000000),
      (-28266910411297 / 100000000000000000000),
      (6041074189897 / 50000000000000000000000)]

/-- The derivative of the enthalpy, as a polynomial. -/
noncomputable def burkeHLowDeriv (T : ℝ) (i : BSp) : ℝ :=
  burkeHLowCoeff i 1 + 2 * burkeHLowCoeff i 2 * T + 3 * burkeHLowCoeff i 3 * T ^ 2 +
    4 * burkeHLowCoeff i 4 * T ^ 3 + 5 * burkeHLowCoeff i 5 * T ^ 4

theorem burkeHLow_coeff (T : ℝ) (i : BSp) : burkeHLow T i = burkeHLowCoeff i 0 +
    burkeHLowCoeff i 1 * T + burkeHLowCoeff i 2 * T ^ 2 + burkeHLowCoeff i 3 * T ^ 3 +
    burkeHLowCoeff i 4 * T ^ 4 + burkeHLowCoeff i 5 * T ^ 5 := by
  cases i <;> simp [burkeHLow, burkeHLowCoeff] <;> ring

theorem burkeHLow_hasDerivAt (T : ℝ) (i : BSp) :
    HasDerivAt (fun t => burkeHLow t i) (burkeHLowDeriv T i) T := by
  have e : (fun t => burkeHLow t i) = fun t => burkeHLowCoeff i 0 +
    burkeHLowCoeff i 1 * t + burkeHLowCoeff i 2 * t ^ 2 + burkeHLowCoeff i 3 * t ^ 3 +
    burkeHLowCoeff i 4 * t ^ 4 + burkeHLowCoeff i 5 * t ^ 5 := by
    funext t
    exact burkeHLow_coeff t i
  rw [e]
  have h1 := (hasDerivAt_id T).const_mul (burkeHLowCoeff i 1)
  have h2 := (hasDerivAt_pow 2 T).const_mul (burkeHLowCoeff i 2)
  have h3 := (hasDerivAt_pow 3 T).const_mul (burkeHLowCoeff i 3)
  have h4 := (hasDerivAt_pow 4 T).const_mul (burkeHLowCoeff i 4)
  have h5 := (hasDerivAt_pow 5 T).const_mul (burkeHLowCoeff i 5)
  have h := ((((h1.const_add (burkeHLowCoeff i 0)).add h2).add h3).add h4).add h5
  refine HasDerivAt.congr_deriv h ?_
  unfold burkeHLowDeriv
  push_cast
  ring

theorem burkeHLowDeriv_close (T : ℝ) (h1 : 299.999999 ≤ T) (h2 : T ≤ 1000) (i : BSp) :
    |burkeHLowDeriv T i - burkeCpLow T i| ≤ 1e-8 * burkeCpLow T i := by
  have hx : 0 ≤ T - 299.999999 := sub_nonneg.mpr h1
  have hy : 0 ≤ 1000 - T := sub_nonneg.mpr h2
  rw [abs_le]
  cases i
  · constructor
    · have e := bern4 (K := ℝ) (332054014187396048536985736783972473848449771417 / 7683200043904000094080000089600000032000000000000000000000000000)
        (1347456712814878614312939278905813114113 / 7683200043904000094080000089600000032000000000000000000)
        (10202288020325225593454779347189 / 38416000219520000470400000448000000160000000000)
        (7274745042609254836067 / 38416000219520000470400000448000000160)
        (11692338527593750000 / 240100001372000002940000002800000001)
        (T - 299.999999) (1000 - T) (by norm_num) (by norm_num) (by norm_num) (by norm_num)
        (by norm_num) hx hy
      simp [burkeHLowDeriv, burkeHLowCoeff, burkeCpLow]
      linear_combination e
    · have e := bern4 (K := ℝ) (332054014187396048536985736783972473848449771417 / 7683200043904000094080000089600000032000000000000000000000000000)
        (1347456712814878614312939278905813114113 / 7683200043904000094080000089600000032000000000000000000)
        (10202288020325225593454779347189 / 38416000219520000470400000448000000160000000000)
        (7274745042609254836067 / 38416000219520000470400000448000000160)
        (11692338527593750000 / 240100001372000002940000002800000001)
        (T - 299.999999) (1000 - T) (by norm_num) (by norm_num) (by norm_num) (by norm_num)
        (by norm_num) hx hy
      simp [burkeHLowDeriv, burkeHLowCoeff, burkeCpLow]
      linear_combination e
  · constructor
    · have e := bern4 (K := ℝ) (5203303150000000000 / 240100001372000002940000002800000001)
        (20813212600000000000 / 240100001372000002940000002800000001)
        (31219818900000000000 / 240100001372000002940000002800000001)
        (20813212600000000000 / 240100001372000002940000002800000001)
        (5203303150000000000 / 240100001372000002940000002800000001)
        (T - 299.999999) (1000 - T) (by norm_num) (by norm_num) (by norm_num) (by norm_num)
        (by norm_num) hx hy
      simp [burkeHLowDeriv, burkeHLowCoeff, burkeCpLow]
      linear_combination e
    · have e := bern4 (K := ℝ) (5203303150000000000 / 240100001372000002940000002800000001)
        (20813212600000000000 / 240100001372000002940000002800000001)
        (31219818900000000000 / 240100001372000002940000002800000001)
        (20813212600000000000 / 240100001372000002940000002800000001)
        (5203303150000000000 / 240100001372000002940000002800000001)
        (T - 299.999999) (1000 - T) (by norm_num) (by norm_num) (by norm_num) (by norm_num)
        (by norm_num) hx hy
      simp [burkeHLowDeriv, burkeHLowCoeff, burkeCpLow]
      linear_combination e
  · constructor
    · have e := bern4 (K := ℝ) (206211859500000000000 / 240100001372000002940000002800000001)
        (824847438000000000000 / 240100001372000002940000002800000001)
        (1237271157000000000000 / 240100001372000002940000002800000001)
        (824847438000000000000 / 240100001372000002940000002800000001)
        (206211859500000000000 / 240100001372000002940000002800000001)
        (T - 299.999999) (1000 - T) (by norm_num) (by norm_num) (by norm_num) (by norm_num)
        (by norm_num) hx hy
      simp [burkeHLowDeriv, burkeHLowCoeff, burkeCpLow]
      linear_combination e
    · have e := bern4 (K := ℝ) (206211859500000000000 / 240100001372000002940000002800000001)
        (824847438000000000000 / 240100001372000002940000002800000001)
        (1237271157000000000000 / 240100001372000002940000002800000001)
        (824847438000000000000 / 240100001372000002940000002800000001)
        (206211859500000000000 / 240100001372000002940000002800000001)
        (T - 299.999999) (1000 - T) (by norm_num) (by norm_num) (by norm_num) (by norm_num)
        (by norm_num) hx hy
      simp [burkeHLowDeriv, burkeHLowCoeff, burkeCpLow]
      linear_combination e
  · constructor
    · have e := bern4 (K := ℝ) (4571328458679461448366808160236791285131044909824789 / 120050000686000001470000001400000000500000000000000000000000000000000)
        (19178487640236694003463504952835714838760789 / 120050000686000001470000001400000000500000000000000000000000)
        (15064368113628458734540417812147087 / 60025000343000000735000000700000000250000000000000)
        (21123915681473520392553639 / 120050000686000001470000001400000000500000)
        (10657655858479698000 / 240100001372000002940000002800000001)
        (T - 299.999999) (1000 - T) (by norm_num) (by norm_num) (by norm_num) (by norm_num)
        (by norm_num) hx hy
      simp [burkeHLowDeriv, burkeHLowCoeff, burkeCpLow]
      linear_combination e
    · have e := bern4 (K := ℝ) (4594712883393565282826635103236791285131044909824789 / 120050000686000001470000001400000000500000000000000000000000000000000)
        (19381152654945247786383158838835714838760789 / 120050000686000001470000001400000000500000000000000000000000)
        (15361869962765856765770331283647087 / 60025000343000000735000000700000000250000000000000)
        (21799465732753866506553639 / 120050000686000001470000001400000000500000)
        (11177309744479698000 / 240100001372000002940000002800000001)
        (T - 299.999999) (1000 - T) (by norm_num) (by norm_num) (by norm_num) (by norm_num)
        (by norm_num) hx hy
      simp [burkeHLowDeriv, burkeHLowCoeff, burkeCpLow]
      linear_combination e
  · constructor
    · have e := bern4 (K := ℝ) (857996238598454033501841151904600613951700505977791 / 15006250085750000183750000175000000062500000000000000000000000000000)
        (13258424181307553668649268136212938588350089 / 60025000343000000735000000700000000250000000000000000000000)
        (20003636134462668557154563780308629 / 60025000343000000735000000700000000250000000000000)
        (13453752352126721898220509 / 60025000343000000735000000700000000250000)
        (13591659633569376000 / 240100001372000002940000002800000001)
        (T - 299.999999) (1000 - T) (by norm_num) (by norm_num) (by norm_num) (by norm_num)
        (by norm_num) hx hy
      simp [burkeHLowDeriv, burkeHLowCoeff, burkeCpLow]
      linear_combination e
    · have e := bern4 (K := ℝ) (852150132419928074886884416154600613951700505977791 / 15006250085750000183750000175000000062500000000000000000000000000000)
        (13055759166598999885729614250212938588350089 / 60025000343000000735000000700000000250000000000000000000000)
        (19408632436187872494694736837308629 / 60025000343000000735000000700000000250000000000000)
        (12778202300846375784220509 / 60025000343000000735000000700000000250000)
        (12552351861569376000 / 240100001372000002940000002800000001)
        (T - 299.999999) (1000 - T) (by norm_num) (by norm_num) (by norm_num) (by norm_num)
        (by norm_num) hx hy
      simp [burkeHLowDeriv, burkeHLowCoeff, burkeCpLow]
      linear_combination e
  · constructor
    · have e := bern4 (K := ℝ) (3896553240262347058298444620306498518259201097473221 / 60025000343000000735000000700000000250000000000000000000000000000000)
        (13428878409481447948628583395220166742813673 / 60025000343000000735000000700000000250000000000000000000000)
        (4305075394278289833876181332135591 / 15006250085750000183750000175000000062500000000000)
        (792771691942715031953103 / 6002500034300000073500000070000000025000)
        (3379659189258204000 / 240100001372000002940000002800000001)
        (T - 299.999999) (1000 - T) (by norm_num) (by norm_num) (by norm_num) (by norm_num)
        (by norm_num) hx hy
      simp [burkeHLowDeriv, burkeHLowCoeff, burkeCpLow]
      linear_combination e
    · have e := bern4 (K := ℝ) (4915817912291543836942576237862218718259201097473221 / 60025000343000000735000000700000000250000000000000000000000000000000)
        (20705499353867254017049834212775886942813673 / 60025000343000000735000000700000000250000000000000000000000)
        (8802550218701022456320461132135591 / 15006250085750000183750000175000000062500000000000)
        (2699309934476147151953103 / 6002500034300000073500000070000000025000)
        (32711016789258204000 / 240100001372000002940000002800000001)
        (T - 299.999999) (1000 - T) (by norm_num) (by norm_num) (by norm_num) (by norm_num)
        (by norm_num) hx hy
      simp [burkeHLowDeriv, burkeHLowCoeff, burkeCpLow]
      linear_combination e
  · constructor
    · have e := bern4 (K := ℝ) (1795131462658634293652608983118943726156557785978621 / 3001250017150000036750000035000000012500000000000000000000000000000)
        (293217785703093977477330741674673995408130163 / 120050000686000001470000001400000000500000000000000000000000)
        (221499339152745540828752182692438273 / 60025000343000000735000000700000000250000000000000)
        (296404376847308491502703069 / 120050000686000001470000001400000000500000)
        (153730923110606364000 / 240100001372000002940000002800000001)
        (T - 299.999999) (1000 - T) (by norm_num) (by norm_num) (by norm_num) (by norm_num)
        (by norm_num) hx hy
      simp [burkeHLowDeriv, burkeHLowCoeff, burkeCpLow]
      linear_combination e
    · have e := bern4 (K := ℝ) (1785851929042997851399503053368943726156557785978621 / 3001250017150000036750000035000000012500000000000000000000000000000)
        (290000880708091536477082267294673995408130163 / 120050000686000001470000001400000000500000000000000000000000)
        (216777087579681286363690064097438273 / 60025000343000000735000000700000000250000000000000)
        (285681360161556965882703069 / 120050000686000001470000001400000000500000)
        (145482448730606364000 / 240100001372000002940000002800000001)
        (T - 299.999999) (1000 - T) (by norm_num) (by norm_num) (by norm_num) (by norm_num)
        (by norm_num) hx hy
      simp [burkeHLowDeriv, burkeHLowCoeff, burkeCpLow]
      linear_combination e
  · constructor
    · have e := bern4 (K := ℝ) (464419002295967518178055052483942734093159540478667 / 6002500034300000073500000070000000025000000000000000000000000000000)
        (7841940787548482798169054656126631484168369 / 24010000137200000294000000280000000100000000000000000000000)
        (12054913397951293041130204298980941 / 24010000137200000294000000280000000100000000000000)
        (8641667500954118830927441 / 24010000137200000294000000280000000100000)
        (22932709025160190000 / 240100001372000002940000002800000001)
        (T - 299.999999) (1000 - T) (by norm_num) (by norm_num) (by norm_num) (by norm_num)
        (by norm_num) hx hy
      simp [burkeHLowDeriv, burkeHLowCoeff, burkeCpLow]
      linear_combination e
    · have e := bern4 (K := ℝ) (464419002295967518178055052483942734093159540478667 / 6002500034300000073500000070000000025000000000000000000000000000000)
        (7841940787548482798169054656126631484168369 / 24010000137200000294000000280000000100000000000000000000000)
        (12054913397951293041130204298980941 / 24010000137200000294000000280000000100000000000000)
        (8641667500954118830927441 / 24010000137200000294000000280000000100000)
        (22932709025160190000 / 240100001372000002940000002800000001)
        (T - 299.999999) (1000 - T) (by norm_num) (by norm_num) (by norm_num) (by norm_num)
        (by norm_num) hx hy
      simp [burkeHLowDeriv, burkeHLowCoeff, burkeCpLow]
      linear_combination e
  · constructor
    · have e := bern4 (K := ℝ) (51965388500000000000 / 240100001372000002940000002800000001)
        (207861554000000000000 / 240100001372000002940000002800000001)
        (311792331000000000000 / 240100001372000002940000002800000001)
        (207861554000000000000 / 240100001372000002940000002800000001)
        (51965388500000000000 / 240100001372000002940000002800000001)
        (T - 299.999999) (1000 - T) (by norm_num) (by norm_num) (by norm_num) (by norm_num)
        (by norm_num) hx hy
      simp [burkeHLowDeriv, burkeHLowCoeff, burkeCpLow]
      linear_combination e
    · have e := bern4 (K := ℝ) (51965388500000000000 / 240100001372000002940000002800000001)
        (207861554000000000000 / 240100001372000002940000002800000001)
        (311792331000000000000 / 240100001372000002940000002800000001)
        (207861554000000000000 / 240100001372000002940000002800000001)
        (51965388500000000000 / 240100001372000002940000002800000001)
        (T - 299.999999) (1000 - T) (by norm_num) (by norm_num) (by norm_num) (by norm_num)
        (by norm_num) hx hy
      simp [burkeHLowDeriv, burkeHLowCoeff, burkeCpLow]
      linear_combination e
  · constructor
    · have e := bern4 (K := ℝ) (13914572185385029274853754114676149646272572436974927 / 300125001715000003675000003500000001250000000000000000000000000000000)
        (62056208115348501068052784501945312190336037 / 300125001715000003675000003500000001250000000000000000000000)
        (217295804679226513269115233385428639 / 600250003430000007350000007000000002500000000000000)
        (59124691665955835773642537 / 240100001372000002940000002800000001000000)
        (16944365161691789600 / 240100001372000002940000002800000001)
        (T - 299.999999) (1000 - T) (by norm_num) (by norm_num) (by norm_num) (by norm_num)
        (by norm_num) hx hy
      simp [burkeHLowDeriv, burkeHLowCoeff, burkeCpLow]
      linear_combination e
    · have e := bern4 (K := ℝ) (12541129237449061919550515963232919659975264086974927 / 300125001715000003675000003500000001250000000000000000000000000000000)
        (54323113467090132405977091167134545590336037 / 300125001715000003675000003500000001250000000000000000000000)
        (190217378799415746606142149885428639 / 600250003430000007350000007000000002500000000000000)
        (49552782989069375813642537 / 240100001372000002940000002800000001000000)
        (11906518481691789600 / 240100001372000002940000002800000001)
        (T - 299.999999) (1000 - T) (by norm_num) (by norm_num) (by norm_num) (by norm_num)
        (by norm_num) hx hy
      simp [burkeHLowDeriv, burkeHLowCoeff, burkeCpLow]
      linear_combination e
  · constructor
    · have e := bern4 (K := ℝ) (12813352694754546949142200388671195142683474189897 / 240100001372000002940000002800000001000000000000000000000000000000)
        (151677177457872181519247847423552168512327 / 600250003430000007350000007000000002500000000000000000000)
        (5078939970259556317255873035798093 / 12005000068600000147000000140000000050000000000000)
        (1775167066345815929506527 / 6002500034300000073500000070000000025000)
        (18735863458318460000 / 240100001372000002940000002800000001)
        (T - 299.999999) (1000 - T) (by norm_num) (by norm_num) (by norm_num) (by norm_num)
        (by norm_num) hx hy
      simp [burkeHLowDeriv, burkeHLowCoeff, burkeCpLow]
      linear_combination e
    · have e := bern4 (K := ℝ) (12808952991143878306693314792671195142683474189897 / 240100001372000002940000002800000001000000000000000000000000000000)
        (151581850546063266287003419443552168512327 / 600250003430000007350000007000000002500000000000000000000)
        (5073342569528800004333428755998093 / 12005000068600000147000000140000000050000000000000)
        (1771989502608260209306527 / 6002500034300000073500000070000000025000)
        (18686977862318460000 / 240100001372000002940000002800000001)
        (T - 299.999999) (1000 - T) (by norm_num) (by norm_num) (by norm_num) (by norm_num)
        (by norm_num) hx hy
      simp [burkeHLowDeriv, burkeHLowCoeff, burkeCpLow]
      linear_combination e

/-- Coefficients of the enthalpy polynomials (`burkeHHigh`). -/
noncomputable def burkeHHighCoeff : BSp → Fin 6 → ℝ
  | .N2 => ![(-4381194324221 / 16000000),
      (17368620659 / 20000000),
      (706451304221 / 3200000000000),
      (-89965700983509 / 1600000000000000000),
      (59922524649 / 8000000000000000000),
      (-3206308714323 / 8000000000000000000000000)]
  | .AR => ![(-620545933669 / 4000000),
      (104066063 / 200000),
      0,
      0,
      0,
      0]
  | .H => ![(1050510437359197 / 5000000),
      (412423719 / 20000),
      0,
      0,
      0,
      0]
  | .O2 => ![(-32060825977599 / 100000000),
      (480365194122027 / 500000000000),
      (1594089481212771 / 20000000000000000),
      (-54513511430001 / 5000000000000000000),
      (461265835195983 / 400000000000000000000000),
      (-59055286393641 / 1000000000000000000000000000)]
  | .O => ![(18987373513611 / 1250000),
      (33024783936129 / 25000000000),
      (-357919668617733 / 50000000000000000),
      (-26873060693983281 / 50000000000000000000000),
      (1182489825998181 / 2000000000000000000000000),
      (-283734399506259 / 6250000000000000000000000000)]
  | .OH => ![(36015277377297 / 20000000),
      (1750549721243757 / 1250000000000),
      (80699767471047 / 312500000000000),
      (-10554512527721007 / 250000000000000000000),
      (1865099598602463 / 500000000000000000000000),
      (-406959986437631 / 3125000000000000000000000000)]
  | .H2 => ![(-172193913885723 / 50000000),
      (1233733798762137 / 100000000000),
      (721807908468759 / 500000000000000),
      (-774508236130017 / 10000000000000000000),
      (-1903660865499291 / 200000000000000000000000),
      (20398889565459 / 15625000000000000000000000)]
  | .H2O => ![(-1379861514767219 / 100000000),
      (616603486720747 / 500000000000),
      (1410492480755327 / 2000000000000000),
      (-134301762507106113 / 1000000000000000000000),
      (138566216280411 / 10000000000000000000000),
      (-1474879720115251 / 2500000000000000000000000000)]
  | .HE => ![(-619739223251 / 400000),
      (103930777 / 20000),
      0,
      0,
      0,
      0]
  | .HO2 => ![(14087924255569071 / 500000000000),
      (5059523148856203 / 5000000000000),
      (7052418972087001 / 25000000000000000),
      (-26602271684954961 / 500000000000000000000),
      (1438889239516379 / 200000000000000000000000),
      (-2718133273967069 / 5000000000000000000000000000)]
  | .H2O2 => ![(-2750878036713 / 625000),
      (55890498600633 / 50000000000),
      (6624206021783 / 12500000000000),
      (-6007587556637 / 50000000000000000),
      (3588361624587 / 250000000000000000000),
      (-8748407381973 / 12500000000000000000000000)]

/-- The derivative of the enthalpy, as a polynomial. -/
noncomputable def burkeHHighDeriv (T : ℝ) (i : BSp) : ℝ :=
  burkeHHighCoeff i 1 + 2 * burkeHHighCoeff i 2 * T + 3 * burkeHHighCoeff i 3 * T ^ 2 +
    4 * burkeHHighCoeff i 4 * T ^ 3 + 5 * burkeHHighCoeff i 5 * T ^ 4

theorem burkeHHigh_coeff (T : ℝ) (i : BSp) : burkeHHigh T i = burkeHHighCoeff i 0 +
    burkeHHighCoeff i 1 * T + burkeHHighCoeff i 2 * T ^ 2 + burkeHHighCoeff i 3 * T ^ 3 +
    burkeHHighCoeff i 4 * T ^ 4 + burkeHHighCoeff i 5 * T ^ 5 := by
  cases i <;> simp [burkeHHigh, burkeHHighCoeff] <;> ring

theorem burkeHHigh_hasDerivAt (T : ℝ) (i : BSp) :
    HasDerivAt (fun t => burkeHHigh t i) (burkeHHighDeriv T i) T := by
  have e : (fun t => burkeHHigh t i) = fun t => burkeHHighCoeff i 0 +
    burkeHHighCoeff i 1 * t + burkeHHighCoeff i 2 * t ^ 2 + burkeHHighCoeff i 3 * t ^ 3 +
    burkeHHighCoeff i 4 * t ^ 4 + burkeHHighCoeff i 5 * t ^ 5 := by
    funext t
    exact burkeHHigh_coeff t i
  rw [e]
  have h1 := (hasDerivAt_id T).const_mul (burkeHHighCoeff i 1)
  have h2 := (hasDerivAt_pow 2 T).const_mul (burkeHHighCoeff i 2)
  have h3 := (hasDerivAt_pow 3 T).const_mul (burkeHHighCoeff i 3)
  have h4 := (hasDerivAt_pow 4 T).const_mul (burkeHHighCoeff i 4)
  have h5 := (hasDerivAt_pow 5 T).const_mul (burkeHHighCoeff i 5)
  have h := ((((h1.const_add (burkeHHighCoeff i 0)).add h2).add h3).add h4).add h5
  refine HasDerivAt.congr_deriv h ?_
  unfold burkeHHighDeriv
  push_cast
  ring

theorem burkeHHighDeriv_close (T : ℝ) (h1 : 1000 ≤ T) (h2 : T ≤ 5000) (i : BSp) :
    |burkeHHighDeriv T i - burkeCpHigh T i| ≤ 1e-8 * burkeCpHigh T i := by
  have hx : 0 ≤ T - 1000 := sub_nonneg.mpr h1
  have hy : 0 ≤ 5000 - T := sub_nonneg.mpr h2
  rw [abs_le]
  cases i
  · constructor
    · have e := bern4 (K := ℝ) (1918252864520577 / 40960000000000000000000000000000000)
        (462170677238257 / 2048000000000000000000000000000000)
        (11724180721851 / 32768000000000000000000000000000)
        (23000881719153 / 81920000000000000000000000000000)
        (8574875153 / 104857600000000000000000000000)
        (T - 1000) (5000 - T) (by norm_num) (by norm_num) (by norm_num) (by norm_num)
        (by norm_num) hx hy
      simp [burkeHHighDeriv, burkeHHighCoeff, burkeCpHigh]
      linear_combination e
    · have e := bern4 (K := ℝ) (1823298264520577 / 40960000000000000000000000000000000)
        (405197917238257 / 2048000000000000000000000000000000)
        (8229851441851 / 32768000000000000000000000000000)
        (11606329719153 / 81920000000000000000000000000000)
        (2497780753 / 104857600000000000000000000000)
        (T - 1000) (5000 - T) (by norm_num) (by norm_num) (by norm_num) (by norm_num)
        (by norm_num) hx hy
      simp [burkeHHighDeriv, burkeHHighCoeff, burkeCpHigh]
      linear_combination e
  · constructor
    · have e := bern4 (K := ℝ) (104066063 / 5120000000000000000000000000)
        (104066063 / 1280000000000000000000000000)
        (312198189 / 2560000000000000000000000000)
        (104066063 / 1280000000000000000000000000)
        (104066063 / 5120000000000000000000000000)
        (T - 1000) (5000 - T) (by norm_num) (by norm_num) (by norm_num) (by norm_num)
        (by norm_num) hx hy
      simp [burkeHHighDeriv, burkeHHighCoeff, burkeCpHigh]
      linear_combination e
    · have e := bern4 (K := ℝ) (104066063 / 5120000000000000000000000000)
        (104066063 / 1280000000000000000000000000)
        (312198189 / 2560000000000000000000000000)
        (104066063 / 1280000000000000000000000000)
        (104066063 / 5120000000000000000000000000)
        (T - 1000) (5000 - T) (by norm_num) (by norm_num) (by norm_num) (by norm_num)
        (by norm_num) hx hy
      simp [burkeHHighDeriv, burkeHHighCoeff, burkeCpHigh]
      linear_combination e
  · constructor
    · have e := bern4 (K := ℝ) (412423719 / 512000000000000000000000000)
        (412423719 / 128000000000000000000000000)
        (1237271157 / 256000000000000000000000000)
        (412423719 / 128000000000000000000000000)
        (412423719 / 512000000000000000000000000)
        (T - 1000) (5000 - T) (by norm_num) (by norm_num) (by norm_num) (by norm_num)
        (by norm_num) hx hy
      simp [burkeHHighDeriv, burkeHHighCoeff, burkeCpHigh]
      linear_combination e
    · have e := bern4 (K := ℝ) (412423719 / 512000000000000000000000000)
        (412423719 / 128000000000000000000000000)
        (1237271157 / 256000000000000000000000000)
        (412423719 / 128000000000000000000000000)
        (412423719 / 512000000000000000000000000)
        (T - 1000) (5000 - T) (by norm_num) (by norm_num) (by norm_num) (by norm_num)
        (by norm_num) hx hy
      simp [burkeHHighDeriv, burkeHHighCoeff, burkeCpHigh]
      linear_combination e
  · constructor
    · have e := bern4 (K := ℝ) (8733988891418577 / 204800000000000000000000000000000000)
        (239679643032120939 / 1280000000000000000000000000000000000)
        (150000365341208763 / 512000000000000000000000000000000000)
        (52058717658444771 / 256000000000000000000000000000000000)
        (10656855851322201 / 204800000000000000000000000000000000)
        (T - 1000) (5000 - T) (by norm_num) (by norm_num) (by norm_num) (by norm_num)
        (by norm_num) hx hy
      simp [burkeHHighDeriv, burkeHHighCoeff, burkeCpHigh]
      linear_combination e
    · have e := bern4 (K := ℝ) (8733988891418577 / 204800000000000000000000000000000000)
        (239679643032120939 / 1280000000000000000000000000000000000)
        (150000365341208763 / 512000000000000000000000000000000000)
        (52058717658444771 / 256000000000000000000000000000000000)
        (10656855851322201 / 204800000000000000000000000000000000)
        (T - 1000) (5000 - T) (by norm_num) (by norm_num) (by norm_num) (by norm_num)
        (by norm_num) hx hy
      simp [burkeHHighDeriv, burkeHHighCoeff, burkeCpHigh]
      linear_combination e
  · constructor
    · have e := bern4 (K := ℝ) (1633350656637999471 / 32000000000000000000000000000000000000)
        (647143326199187199 / 3200000000000000000000000000000000000)
        (242155384311648771 / 800000000000000000000000000000000000)
        (26432383805577561 / 128000000000000000000000000000000000)
        (13498617424069677 / 256000000000000000000000000000000000)
        (T - 1000) (5000 - T) (by norm_num) (by norm_num) (by norm_num) (by norm_num)
        (by norm_num) hx hy
      simp [burkeHHighDeriv, burkeHHighCoeff, burkeCpHigh]
      linear_combination e
    · have e := bern4 (K := ℝ) (1634649791352999471 / 32000000000000000000000000000000000000)
        (648702287857187199 / 3200000000000000000000000000000000000)
        (243649389233898771 / 800000000000000000000000000000000000)
        (26744176137177561 / 128000000000000000000000000000000000)
        (13758444367069677 / 256000000000000000000000000000000000)
        (T - 1000) (5000 - T) (by norm_num) (by norm_num) (by norm_num) (by norm_num)
        (by norm_num) hx hy
      simp [burkeHHighDeriv, burkeHHighCoeff, burkeCpHigh]
      linear_combination e
  · constructor
    · have e := bern4 (K := ℝ) (565444487137090067 / 8000000000000000000000000000000000000)
        (265565941942946491 / 800000000000000000000000000000000000)
        (5212201567551819 / 10000000000000000000000000000000000)
        (11522589023421013 / 32000000000000000000000000000000000)
        (5992080446737249 / 64000000000000000000000000000000000)
        (T - 1000) (5000 - T) (by norm_num) (by norm_num) (by norm_num) (by norm_num)
        (by norm_num) hx hy
      simp [burkeHHighDeriv, burkeHHighCoeff, burkeCpHigh]
      linear_combination e
    · have e := bern4 (K := ℝ) (562389137387090067 / 8000000000000000000000000000000000000)
        (261899522242946491 / 800000000000000000000000000000000000)
        (5036518956926819 / 10000000000000000000000000000000000)
        (10789305083421013 / 32000000000000000000000000000000000)
        (5381010496737249 / 64000000000000000000000000000000000)
        (T - 1000) (5000 - T) (by norm_num) (by norm_num) (by norm_num) (by norm_num)
        (by norm_num) hx hy
      simp [burkeHHighDeriv, burkeHHighCoeff, burkeCpHigh]
      linear_combination e
  · constructor
    · have e := bern4 (K := ℝ) (374016789450209049 / 640000000000000000000000000000000000)
        (864754459845960891 / 320000000000000000000000000000000000)
        (141073176022659927 / 32000000000000000000000000000000000)
        (38626544355311013 / 12800000000000000000000000000000000)
        (4057062027072999 / 5120000000000000000000000000000000)
        (T - 1000) (5000 - T) (by norm_num) (by norm_num) (by norm_num) (by norm_num)
        (by norm_num) hx hy
      simp [burkeHHighDeriv, burkeHHighCoeff, burkeCpHigh]
      linear_combination e
    · have e := bern4 (K := ℝ) (374016789450209049 / 640000000000000000000000000000000000)
        (864754459845960891 / 320000000000000000000000000000000000)
        (141073176022659927 / 32000000000000000000000000000000000)
        (38626544355311013 / 12800000000000000000000000000000000)
        (4057062027072999 / 5120000000000000000000000000000000)
        (T - 1000) (5000 - T) (by norm_num) (by norm_num) (by norm_num) (by norm_num)
        (by norm_num) hx hy
      simp [burkeHHighDeriv, burkeHHighCoeff, burkeCpHigh]
      linear_combination e
  · constructor
    · have e := bern4 (K := ℝ) (1123560230154470449 / 12800000000000000000000000000000000000)
        (291398192092021109 / 640000000000000000000000000000000000)
        (166774632001536267 / 256000000000000000000000000000000000)
        (10167781910579997 / 25600000000000000000000000000000000)
        (8575950068397061 / 102400000000000000000000000000000000)
        (T - 1000) (5000 - T) (by norm_num) (by norm_num) (by norm_num) (by norm_num)
        (by norm_num) hx hy
      simp [burkeHHighDeriv, burkeHHighCoeff, burkeCpHigh]
      linear_combination e
    · have e := bern4 (K := ℝ) (1169710664054470449 / 12800000000000000000000000000000000000)
        (319088452432021109 / 640000000000000000000000000000000000)
        (209233031189536267 / 256000000000000000000000000000000000)
        (15705833978579997 / 25600000000000000000000000000000000)
        (17806036848397061 / 102400000000000000000000000000000000)
        (T - 1000) (5000 - T) (by norm_num) (by norm_num) (by norm_num) (by norm_num)
        (by norm_num) hx hy
      simp [burkeHHighDeriv, burkeHHighCoeff, burkeCpHigh]
      linear_combination e
  · constructor
    · have e := bern4 (K := ℝ) (103930777 / 512000000000000000000000000)
        (103930777 / 128000000000000000000000000)
        (311792331 / 256000000000000000000000000)
        (103930777 / 128000000000000000000000000)
        (103930777 / 512000000000000000000000000)
        (T - 1000) (5000 - T) (by norm_num) (by norm_num) (by norm_num) (by norm_num)
        (by norm_num) hx hy
      simp [burkeHHighDeriv, burkeHHighCoeff, burkeCpHigh]
      linear_combination e
    · have e := bern4 (K := ℝ) (103930777 / 512000000000000000000000000)
        (103930777 / 128000000000000000000000000)
        (311792331 / 256000000000000000000000000)
        (103930777 / 128000000000000000000000000)
        (103930777 / 512000000000000000000000000)
        (T - 1000) (5000 - T) (by norm_num) (by norm_num) (by norm_num) (by norm_num)
        (by norm_num) hx hy
      simp [burkeHHighDeriv, burkeHHighCoeff, burkeCpHigh]
      linear_combination e
  · constructor
    · have e := bern4 (K := ℝ) (1215841070611862431 / 25600000000000000000000000000000000000)
        (266950856849923223 / 1280000000000000000000000000000000000)
        (769160751157315041 / 2560000000000000000000000000000000000)
        (268773200152187631 / 1280000000000000000000000000000000000)
        (44447617588865383 / 1024000000000000000000000000000000000)
        (T - 1000) (5000 - T) (by norm_num) (by norm_num) (by norm_num) (by norm_num)
        (by norm_num) hx hy
      simp [burkeHHighDeriv, burkeHHighCoeff, burkeCpHigh]
      linear_combination e
    · have e := bern4 (K := ℝ) (1669247271811862431 / 25600000000000000000000000000000000000)
        (438237643969923223 / 1280000000000000000000000000000000000)
        (1444232206277315041 / 2560000000000000000000000000000000000)
        (520665534152187631 / 1280000000000000000000000000000000000)
        (94826084388865383 / 1024000000000000000000000000000000000)
        (T - 1000) (5000 - T) (by norm_num) (by norm_num) (by norm_num) (by norm_num)
        (by norm_num) hx hy
      simp [burkeHHighDeriv, burkeHHighCoeff, burkeCpHigh]
      linear_combination e
  · constructor
    · have e := bern4 (K := ℝ) (4677855262850807 / 64000000000000000000000000000000000)
        (1184174233999091 / 3200000000000000000000000000000000)
        (692298390748989 / 1280000000000000000000000000000000)
        (238374195555143 / 640000000000000000000000000000000)
        (239541485816431 / 2560000000000000000000000000000000)
        (T - 1000) (5000 - T) (by norm_num) (by norm_num) (by norm_num) (by norm_num)
        (by norm_num) hx hy
      simp [burkeHHighDeriv, burkeHHighCoeff, burkeCpHigh]
      linear_combination e
    · have e := bern4 (K := ℝ) (4677855262850807 / 64000000000000000000000000000000000)
        (1184174233999091 / 3200000000000000000000000000000000)
        (692298390748989 / 1280000000000000000000000000000000)
        (238374195555143 / 640000000000000000000000000000000)
        (239541485816431 / 2560000000000000000000000000000000)
        (T - 1000) (5000 - T) (by norm_num) (by norm_num) (by norm_num) (by norm_num)
        (by norm_num) hx hy
      simp [burkeHHighDeriv, burkeHHighCoeff, burkeCpHigh]
      linear_combination e

/-- A polynomial of degree five with non-negative Bernstein coefficients is non-negative. -/
theorem bern5 {K : Type*} [Field K] [LinearOrder K] [IsStrictOrderedRing K]
    (b0 b1 b2 b3 b4 b5 x y : K) (h0 : 0 ≤ b0) (h1 : 0 ≤ b1) (h2 : 0 ≤ b2)
    (h3 : 0 ≤ b3) (h4 : 0 ≤ b4) (h5 : 0 ≤ b5) (hx : 0 ≤ x) (hy : 0 ≤ y) :
    0 ≤ b0 * y ^ 5 + b1 * x * y ^ 4 + b2 * x ^ 2 * y ^ 3 + b3 * x ^ 3 * y ^ 2 + b4 * x ^ 4 * y +
      b5 * x ^ 5 := by
  positivity

theorem burkeULow_O2 {K : Type*} [Field K] [LinearOrder K] [IsStrictOrderedRing K] (T : K)
    (h1 : 299.999999 ≤ T) (h2 : T ≤ 1000) :
    burkeHLow T .O2 - 8314.462175 / 32 * T ≤ burkeHLow 1000 .O2 - 8314.462175 / 32 * 1000 := by
  have hx : 0 ≤ T - 299.999999 := sub_nonneg.mpr h1
  have hy : 0 ≤ 1000 - T := sub_nonneg.mpr h2
  have e := bern5 (K := K) (18802505887623168948815448442829524469821242159824789 / 6002500034300000073500000070000000025000000000000000000000000)
    (62074479726189310827156983933567471598760789 / 4802000027440000058800000056000000020000000000000000)
    (4799119843898666500577642095233002619 / 240100001372000002940000002800000001000000000)
    (3290357858274880033315190843 / 240100001372000002940000002800000001)
    (831921336919392857000000000 / 240100001372000002940000002800000001)
    0
    (T - 299.999999) (1000 - T) (by norm_num) (by norm_num) (by norm_num) (by norm_num)
    (by norm_num) (by norm_num) hx hy
  simp only [burkeHLow]
  linear_combination e

theorem burkeUHigh_O2 {K : Type*} [Field K] [LinearOrder K] [IsStrictOrderedRing K] (T : K)
    (h1 : 1000 ≤ T) (h2 : T ≤ 5000) :
    burkeHHigh 1000 .O2 - 8314.462175 / 32 * 1000 ≤ burkeHHigh T .O2 - 8314.462175 / 32 * T := by
  have hx : 0 ≤ T - 1000 := sub_nonneg.mpr h1
  have hy : 0 ≤ 5000 - T := sub_nonneg.mpr h2
  have e := bern5 (K := K) 0
    (6655373347668577 / 2048000000000000000000000000)
    (88524647032521341 / 6400000000000000000000000000)
    (552133808438349969 / 25600000000000000000000000000)
    (47528875508551489 / 3200000000000000000000000000)
    (974918015826128849 / 256000000000000000000000000000)
    (T - 1000) (5000 - T) (by norm_num) (by norm_num) (by norm_num) (by norm_num)
    (by norm_num) (by norm_num) hx hy
  simp only [burkeHHigh]
  linear_combination e

end Fub
