import Verif.Lemmas.BurkeThermo
import Mathlib.Analysis.Calculus.Deriv.MeanValue
import Mathlib.Analysis.Calculus.Deriv.Mul

/-!
# Slopes of the internal energies of `Burke2012`

Bounds for the heat capacities at constant volume of each species, certified by Bernstein forms, and
the slopes of secants of the internal energies which follow from them.
-/

namespace Fub

/-- Specific gas constant of a species. -/
noncomputable def burkeR (i : BSp) : ℝ := 8314.462175 / burkeMolarMass i

/-- Lower bound of the heat capacity at constant volume on [300, 5000]. -/
def burkeCvMin : BSp → ℝ
  | .N2 => 740
  | .AR => 312
  | .H => 12372
  | .O2 => 656
  | .O => 780
  | .OH => 1217
  | .H2 => 10199
  | .H2O => 1396
  | .HE => 3117
  | .HO2 => 806
  | .H2O2 => 1036

/-- Upper bound on [300, 2500]. -/
def burkeCvMid : BSp → ℝ
  | .N2 => 1012
  | .AR => 313
  | .H => 12373
  | .O2 => 956
  | .O => 849
  | .OH => 1619
  | .H2 => 13640
  | .H2O => 2531
  | .HE => 3118
  | .HO2 => 1517
  | .H2O2 => 2031

/-- Lower bound on [2500, 5000]. -/
def burkeCvHot : BSp → ℝ
  | .N2 => 1011
  | .AR => 312
  | .H => 12372
  | .O2 => 955
  | .O => 783
  | .OH => 1618
  | .H2 => 13639
  | .H2O => 2530
  | .HE => 3117
  | .HO2 => 1489
  | .H2O2 => 2030

/-- Upper bound on [300, 5000]. -/
def burkeCvMax : BSp → ℝ
  | .N2 => 1056
  | .AR => 313
  | .H => 12373
  | .O2 => 1073
  | .O => 849
  | .OH => 1786
  | .H2 => 16162
  | .H2O => 2837
  | .HE => 3118
  | .HO2 => 1639
  | .H2O2 => 2151

theorem burkeCv_constants (i : BSp) :
    312 ≤ burkeCvMin i ∧ burkeCvMid i + 3 ≤ 1.97 * burkeCvMin i ∧
    burkeCvMax i + 3 ≤ 1.97 * burkeCvHot i ∧ 0.03 * burkeCvMax i ≤ burkeCvMin i - 3 ∧
    burkeCvMin i ≤ burkeCvHot i ∧ burkeCvMid i ≤ burkeCvMax i ∧ burkeCvMax i ≤ 17000 ∧
    burkeR i ≤ 8400 := by
  cases i <;> norm_num [burkeCvMin, burkeCvMid, burkeCvHot, burkeCvMax, burkeR, burkeMolarMass]

theorem burkeCv_cold (T : ℝ) (h1 : 300 ≤ T) (h2 : T ≤ 1000) (i : BSp) :
    burkeCvMin i ≤ burkeCpLow T i - burkeR i ∧ burkeCpLow T i - burkeR i ≤ burkeCvMid i := by
  have hx : 0 ≤ T - 300 := sub_nonneg.mpr h1
  have hy : 0 ≤ 1000 - T := sub_nonneg.mpr h2
  cases i
  · constructor
    · have e := bern4 (K := ℝ) (4194791150506627 / 1076416320000000000000000000)
        (28634075530790143 / 107641632000000000000000000)
        (11658655843899577 / 17940272000000000000000000)
        (8961539091125669 / 5382081600000000000000000)
        (59402726069083 / 107641632000000000000000)
        (T - 300) (1000 - T) (by norm_num) (by norm_num) (by norm_num) (by norm_num)
        (by norm_num) hx hy
      simp only [burkeCvMin, burkeCvMid, burkeCpLow, burkeR, burkeMolarMass]
      linear_combination e
    · have e := bern4 (K := ℝ) (1215235608849493373 / 1076416320000000000000000000)
        (459138084469209857 / 107641632000000000000000000)
        (110284384156100423 / 17940272000000000000000000)
        (15427068908874331 / 5382081600000000000000000)
        (62540313930917 / 107641632000000000000000)
        (T - 300) (1000 - T) (by norm_num) (by norm_num) (by norm_num) (by norm_num)
        (by norm_num) hx hy
      simp only [burkeCvMin, burkeCvMid, burkeCpLow, burkeR, burkeMolarMass]
      linear_combination e
  · constructor
    · have e := bern4 (K := ℝ) (395862431 / 479575740000000000000)
        (395862431 / 119893935000000000000)
        (395862431 / 79929290000000000000)
        (395862431 / 119893935000000000000)
        (395862431 / 479575740000000000000)
        (T - 300) (1000 - T) (by norm_num) (by norm_num) (by norm_num) (by norm_num)
        (by norm_num) hx hy
      simp only [burkeCvMin, burkeCvMid, burkeCpLow, burkeR, burkeMolarMass]
      linear_combination e
    · have e := bern4 (K := ℝ) (1601537569 / 479575740000000000000)
        (1601537569 / 119893935000000000000)
        (1601537569 / 79929290000000000000)
        (1601537569 / 119893935000000000000)
        (1601537569 / 479575740000000000000)
        (T - 300) (1000 - T) (by norm_num) (by norm_num) (by norm_num) (by norm_num)
        (by norm_num) hx hy
      simp only [burkeCvMin, burkeCvMid, burkeCpLow, burkeR, burkeMolarMass]
      linear_combination e
  · constructor
    · have e := bern4 (K := ℝ) (3586313 / 1210104000000000000)
        (3586313 / 302526000000000000)
        (3586313 / 201684000000000000)
        (3586313 / 302526000000000000)
        (3586313 / 1210104000000000000)
        (T - 300) (1000 - T) (by norm_num) (by norm_num) (by norm_num) (by norm_num)
        (by norm_num) hx hy
      simp only [burkeCvMin, burkeCvMid, burkeCpLow, burkeR, burkeMolarMass]
      linear_combination e
    · have e := bern4 (K := ℝ) (1453687 / 1210104000000000000)
        (1453687 / 302526000000000000)
        (1453687 / 201684000000000000)
        (1453687 / 302526000000000000)
        (1453687 / 1210104000000000000)
        (T - 300) (1000 - T) (by norm_num) (by norm_num) (by norm_num) (by norm_num)
        (by norm_num) hx hy
      simp only [burkeCvMin, burkeCvMid, burkeCpLow, burkeR, burkeMolarMass]
      linear_combination e
  · constructor
    · have e := bern4 (K := ℝ) (5551367923820037 / 1715000000000000000000000000)
        (137611613217182721 / 171500000000000000000000000)
        (10540820687065647 / 4287500000000000000000000)
        (4493074068959919 / 1715000000000000000000000)
        (125658097985157 / 171500000000000000000000)
        (T - 300) (1000 - T) (by norm_num) (by norm_num) (by norm_num) (by norm_num)
        (by norm_num) hx hy
      simp only [burkeCvMin, burkeCvMid, burkeCpLow, burkeR, burkeMolarMass]
      linear_combination e
    · have e := bern4 (K := ℝ) (14961140424533259741 / 12005000000000000000000000000)
        (5036718707479720953 / 1200500000000000000000000000)
        (151214255190540471 / 30012500000000000000000000)
        (28548481517280567 / 12005000000000000000000000)
        (620393314103901 / 1200500000000000000000000)
        (T - 300) (1000 - T) (by norm_num) (by norm_num) (by norm_num) (by norm_num)
        (by norm_num) hx hy
      simp only [burkeCvMin, burkeCvMid, burkeCpLow, burkeR, burkeMolarMass]
      linear_combination e
  · constructor
    · have e := bern4 (K := ℝ) (122255733174521081 / 428750000000000000000000000)
        (22936116356283121 / 85750000000000000000000000)
        (431277543205839 / 1225000000000000000000000)
        (170626381498189 / 857500000000000000000000)
        (1347623003471 / 42875000000000000000000)
        (T - 300) (1000 - T) (by norm_num) (by norm_num) (by norm_num) (by norm_num)
        (by norm_num) hx hy
      simp only [burkeCvMin, burkeCvMid, burkeCpLow, burkeR, burkeMolarMass]
      linear_combination e
    · have e := bern4 (K := ℝ) (6709867778352433 / 3001250000000000000000000000)
        (529447185506018153 / 600250000000000000000000000)
        (82367400382913889 / 60025000000000000000000000)
        (5705615329512677 / 6002500000000000000000000)
        (76816638975703 / 300125000000000000000000)
        (T - 300) (1000 - T) (by norm_num) (by norm_num) (by norm_num) (by norm_num)
        (by norm_num) hx hy
      simp only [burkeCvMin, burkeCvMid, burkeCpLow, burkeR, burkeMolarMass]
      linear_combination e
  · constructor
    · have e := bern4 (K := ℝ) (1504630518919583164493 / 6380657500000000000000000000000)
        (9172923711061893217 / 638065750000000000000000000000)
        (4168367275354285523 / 3987910937500000000000000000)
        (17086599437180411 / 25522630000000000000000000)
        (262236355801617713 / 638065750000000000000000000)
        (T - 300) (1000 - T) (by norm_num) (by norm_num) (by norm_num) (by norm_num)
        (by norm_num) hx hy
      simp only [burkeCvMin, burkeCvMid, burkeCpLow, burkeR, burkeMolarMass]
      linear_combination e
    · have e := bern4 (K := ℝ) (9178519481080416835507 / 6380657500000000000000000000000)
        (4264087076288938106783 / 638065750000000000000000000000)
        (35893445224645714477 / 3987910937500000000000000000)
        (153843800562819589 / 25522630000000000000000000)
        (806078644198382287 / 638065750000000000000000000)
        (T - 300) (1000 - T) (by norm_num) (by norm_num) (by norm_num) (by norm_num)
        (by norm_num) hx hy
      simp only [burkeCvMin, burkeCvMid, burkeCpLow, burkeR, burkeMolarMass]
      linear_combination e
  · constructor
    · have e := bern4 (K := ℝ) (219359162066069479 / 75631500000000000000000000000)
        (324109132732580535007 / 75631500000000000000000000000)
        (4504138289768398331 / 630262500000000000000000000)
        (2884218571396072069 / 756315000000000000000000000)
        (100395445827675233 / 37815750000000000000000000)
        (T - 300) (1000 - T) (by norm_num) (by norm_num) (by norm_num) (by norm_num)
        (by norm_num) hx hy
      simp only [burkeCvMin, burkeCvMid, burkeCpLow, burkeR, burkeMolarMass]
      linear_combination e
    · have e := bern4 (K := ℝ) (1083695640837933930521 / 75631500000000000000000000000)
        (4011550867267419464993 / 75631500000000000000000000000)
        (49691611710231601669 / 630262500000000000000000000)
        (40472381428603927931 / 756315000000000000000000000)
        (441562054172324767 / 37815750000000000000000000)
        (T - 300) (1000 - T) (by norm_num) (by norm_num) (by norm_num) (by norm_num)
        (by norm_num) hx hy
      simp only [burkeCvMin, burkeCvMid, burkeCpLow, burkeR, burkeMolarMass]
      linear_combination e
  · constructor
    · have e := bern4 (K := ℝ) (483252662603469797 / 675881500000000000000000000000)
        (231912891984502238861 / 135176300000000000000000000000)
        (51226658669399786997 / 13517630000000000000000000000)
        (6821590315895792861 / 1351763000000000000000000000)
        (245336575147768697 / 135176300000000000000000000)
        (T - 300) (1000 - T) (by norm_num) (by norm_num) (by norm_num) (by norm_num)
        (by norm_num) hx hy
      simp only [burkeCvMin, burkeCvMid, burkeCpLow, burkeR, burkeMolarMass]
      linear_combination e
    · have e := bern4 (K := ℝ) (3194541747337396530203 / 675881500000000000000000000000)
        (2324107108015497761139 / 135176300000000000000000000000)
        (332176341330600213003 / 13517630000000000000000000000)
        (18738609684104207139 / 1351763000000000000000000000)
        (393668424852231303 / 135176300000000000000000000)
        (T - 300) (1000 - T) (by norm_num) (by norm_num) (by norm_num) (by norm_num)
        (by norm_num) hx hy
      simp only [burkeCvMin, burkeCvMid, burkeCpLow, burkeR, burkeMolarMass]
      linear_combination e
  · constructor
    · have e := bern4 (K := ℝ) (147729 / 38416000000000000)
        (147729 / 9604000000000000)
        (443187 / 19208000000000000)
        (147729 / 9604000000000000)
        (147729 / 38416000000000000)
        (T - 300) (1000 - T) (by norm_num) (by norm_num) (by norm_num) (by norm_num)
        (by norm_num) hx hy
      simp only [burkeCvMin, burkeCvMid, burkeCpLow, burkeR, burkeMolarMass]
      linear_combination e
    · have e := bern4 (K := ℝ) (1753 / 5488000000000000)
        (1753 / 1372000000000000)
        (5259 / 2744000000000000)
        (1753 / 1372000000000000)
        (1753 / 5488000000000000)
        (T - 300) (1000 - T) (by norm_num) (by norm_num) (by norm_num) (by norm_num)
        (by norm_num) hx hy
      simp only [burkeCvMin, burkeCvMid, burkeCpLow, burkeR, burkeMolarMass]
      linear_combination e
  · constructor
    · have e := bern4 (K := ℝ) (86574589903952753031 / 61915787500000000000000000000000)
        (5461838000715252320919 / 3095789375000000000000000000000)
        (2324626646691877127267 / 309578937500000000000000000000)
        (248035396790698354609 / 49532630000000000000000000000)
        (9919209523468952431 / 6191578750000000000000000000)
        (T - 300) (1000 - T) (by norm_num) (by norm_num) (by norm_num) (by norm_num)
        (by norm_num) hx hy
      simp only [burkeCvMin, burkeCvMid, burkeCpLow, burkeR, burkeMolarMass]
      linear_combination e
    · have e := bern4 (K := ℝ) (183262550410096047246969 / 61915787500000000000000000000000)
        (31207986999284747679081 / 3095789375000000000000000000000)
        (3175847103308122872733 / 309578937500000000000000000000)
        (338681803209301645391 / 49532630000000000000000000000)
        (8415702976531047569 / 6191578750000000000000000000)
        (T - 300) (1000 - T) (by norm_num) (by norm_num) (by norm_num) (by norm_num)
        (by norm_num) hx hy
      simp only [burkeCvMin, burkeCvMid, burkeCpLow, burkeR, burkeMolarMass]
      linear_combination e
  · constructor
    · have e := bern4 (K := ℝ) (14612113306018749 / 5104526000000000000000000000)
        (6268169791821064311 / 1595164375000000000000000000)
        (131265334173412703911 / 12761315000000000000000000000)
        (5242187735784990387 / 638065750000000000000000000)
        (313964536611551149 / 127613150000000000000000000)
        (T - 300) (1000 - T) (by norm_num) (by norm_num) (by norm_num) (by norm_num)
        (by norm_num) hx hy
      simp only [burkeCvMin, burkeCvMid, burkeCpLow, burkeR, burkeMolarMass]
      linear_combination e
    · have e := bern4 (K := ℝ) (21139087886693981251 / 5104526000000000000000000000)
        (20173955208178935689 / 1595164375000000000000000000)
        (186040165826587296089 / 12761315000000000000000000000)
        (5334662264215009613 / 638065750000000000000000000)
        (214877963388448851 / 127613150000000000000000000)
        (T - 300) (1000 - T) (by norm_num) (by norm_num) (by norm_num) (by norm_num)
        (by norm_num) hx hy
      simp only [burkeCvMin, burkeCvMid, burkeCpLow, burkeR, burkeMolarMass]
      linear_combination e

theorem burkeCv_mid (T : ℝ) (h1 : 1000 ≤ T) (h2 : T ≤ 2500) (i : BSp) :
    burkeCvMin i ≤ burkeCpHigh T i - burkeR i ∧ burkeCpHigh T i - burkeR i ≤ burkeCvMid i := by
  have hx : 0 ≤ T - 1000 := sub_nonneg.mpr h1
  have hy : 0 ≤ 2500 - T := sub_nonneg.mpr h2
  cases i
  · constructor
    · have e := bern4 (K := ℝ) (297015591893328377 / 11348100000000000000000000000)
        (181356527196430637 / 1134810000000000000000000000)
        (85347052489913159 / 302616000000000000000000000)
        (37030750440724889 / 181569600000000000000000000)
        (3111506786784817 / 58102272000000000000000000)
        (T - 1000) (2500 - T) (by norm_num) (by norm_num) (by norm_num) (by norm_num)
        (by norm_num) hx hy
      simp only [burkeCvMin, burkeCvMid, burkeCpHigh, burkeR, burkeMolarMass]
      linear_combination e
    · have e := bern4 (K := ℝ) (312699608106671623 / 11348100000000000000000000000)
        (62529552803569363 / 1134810000000000000000000000)
        (12207379510086841 / 302616000000000000000000000)
        (1991022359275111 / 181569600000000000000000000)
        (10235037215183 / 58102272000000000000000000)
        (T - 1000) (2500 - T) (by norm_num) (by norm_num) (by norm_num) (by norm_num)
        (by norm_num) hx hy
      simp only [burkeCvMin, burkeCvMid, burkeCpHigh, burkeR, burkeMolarMass]
      linear_combination e
  · constructor
    · have e := bern4 (K := ℝ) (395862431 / 10111837500000000000000)
        (395862431 / 2527959375000000000000)
        (395862431 / 1685306250000000000000)
        (395862431 / 2527959375000000000000)
        (395862431 / 10111837500000000000000)
        (T - 1000) (2500 - T) (by norm_num) (by norm_num) (by norm_num) (by norm_num)
        (by norm_num) hx hy
      simp only [burkeCvMin, burkeCvMid, burkeCpHigh, burkeR, burkeMolarMass]
      linear_combination e
    · have e := bern4 (K := ℝ) (1601537569 / 10111837500000000000000)
        (1601537569 / 2527959375000000000000)
        (1601537569 / 1685306250000000000000)
        (1601537569 / 2527959375000000000000)
        (1601537569 / 10111837500000000000000)
        (T - 1000) (2500 - T) (by norm_num) (by norm_num) (by norm_num) (by norm_num)
        (by norm_num) hx hy
      simp only [burkeCvMin, burkeCvMid, burkeCpHigh, burkeR, burkeMolarMass]
      linear_combination e
  · constructor
    · have e := bern4 (K := ℝ) (3586313 / 25515000000000000000)
        (3586313 / 6378750000000000000)
        (3586313 / 4252500000000000000)
        (3586313 / 6378750000000000000)
        (3586313 / 25515000000000000000)
        (T - 1000) (2500 - T) (by norm_num) (by norm_num) (by norm_num) (by norm_num)
        (by norm_num) hx hy
      simp only [burkeCvMin, burkeCvMid, burkeCpHigh, burkeR, burkeMolarMass]
      linear_combination e
    · have e := bern4 (K := ℝ) (1453687 / 25515000000000000000)
        (1453687 / 6378750000000000000)
        (1453687 / 4252500000000000000)
        (1453687 / 6378750000000000000)
        (1453687 / 25515000000000000000)
        (T - 1000) (2500 - T) (by norm_num) (by norm_num) (by norm_num) (by norm_num)
        (by norm_num) hx hy
      simp only [burkeCvMin, burkeCvMid, burkeCpHigh, burkeR, burkeMolarMass]
      linear_combination e
  · constructor
    · have e := bern4 (K := ℝ) (469124449222859 / 13500000000000000000000000)
        (57577405295614157 / 337500000000000000000000000)
        (3308909331477469 / 11250000000000000000000000)
        (58789510611608917 / 270000000000000000000000000)
        (12780317817241913 / 216000000000000000000000000)
        (T - 1000) (2500 - T) (by norm_num) (by norm_num) (by norm_num) (by norm_num)
        (by norm_num) hx hy
      simp only [burkeCvMin, burkeCvMid, burkeCpHigh, burkeR, burkeMolarMass]
      linear_combination e
    · have e := bern4 (K := ℝ) (12254650028783 / 500000000000000000000000)
        (830466470532809 / 12500000000000000000000000)
        (76787852058059 / 1250000000000000000000000)
        (192981088458929 / 10000000000000000000000000)
        (728969731781 / 8000000000000000000000000)
        (T - 1000) (2500 - T) (by norm_num) (by norm_num) (by norm_num) (by norm_num)
        (by norm_num) hx hy
      simp only [burkeCvMin, burkeCvMid, burkeCpHigh, burkeR, burkeMolarMass]
      linear_combination e
  · constructor
    · have e := bern4 (K := ℝ) (9432866573624471 / 6328125000000000000000000000)
        (13153325325560539 / 5062500000000000000000000000)
        (143901432399853 / 210937500000000000000000000)
        (2039952499943807 / 4050000000000000000000000000)
        (35542139959939 / 50625000000000000000000000)
        (T - 1000) (2500 - T) (by norm_num) (by norm_num) (by norm_num) (by norm_num)
        (by norm_num) hx hy
      simp only [burkeCvMin, burkeCvMid, burkeCpHigh, burkeR, burkeMolarMass]
      linear_combination e
    · have e := bern4 (K := ℝ) (76817133426375529 / 6328125000000000000000000000)
        (262846674674439461 / 5062500000000000000000000000)
        (17106098567600147 / 210937500000000000000000000)
        (218760047500056193 / 4050000000000000000000000000)
        (654457860040061 / 50625000000000000000000000)
        (T - 1000) (2500 - T) (by norm_num) (by norm_num) (by norm_num) (by norm_num)
        (by norm_num) hx hy
      simp only [burkeCvMin, burkeCvMid, burkeCpHigh, burkeR, burkeMolarMass]
      linear_combination e
  · constructor
    · have e := bern4 (K := ℝ) (32779544579132991221 / 1681699218750000000000000000000)
        (226605939576109842241 / 1345359375000000000000000000000)
        (62823175837376778419 / 179381250000000000000000000000)
        (60555341706603320743 / 215257500000000000000000000000)
        (34177074849901562309 / 430515000000000000000000000000)
        (T - 1000) (2500 - T) (by norm_num) (by norm_num) (by norm_num) (by norm_num)
        (by norm_num) hx hy
      simp only [burkeCvMin, burkeCvMid, burkeCpHigh, burkeR, burkeMolarMass]
      linear_combination e
    · have e := bern4 (K := ℝ) (100759830420867008779 / 1681699218750000000000000000000)
        (200720060423890157759 / 1345359375000000000000000000000)
        (22642024162623221581 / 179381250000000000000000000000)
        (7816818293396679257 / 215257500000000000000000000000)
        (9005150098437691 / 430515000000000000000000000000)
        (T - 1000) (2500 - T) (by norm_num) (by norm_num) (by norm_num) (by norm_num)
        (by norm_num) hx hy
      simp only [burkeCvMin, burkeCvMid, burkeCpHigh, burkeR, burkeMolarMass]
      linear_combination e
  · constructor
    · have e := bern4 (K := ℝ) (1003959161144420087 / 7973437500000000000000000000)
        (38123593077018309269 / 31893750000000000000000000000)
        (1145577009356697781 / 425250000000000000000000000)
        (11723962103379267101 / 5103000000000000000000000000)
        (693517918198841257 / 1020600000000000000000000000)
        (T - 1000) (2500 - T) (by norm_num) (by norm_num) (by norm_num) (by norm_num)
        (by norm_num) hx hy
      simp only [burkeCvMin, burkeCvMid, burkeCpHigh, burkeR, burkeMolarMass]
      linear_combination e
    · have e := bern4 (K := ℝ) (4415615838855579913 / 7973437500000000000000000000)
        (48589606922981690731 / 31893750000000000000000000000)
        (588686990643302219 / 425250000000000000000000000)
        (2150149896620732899 / 5103000000000000000000000000)
        (187681801158743 / 1020600000000000000000000000)
        (T - 1000) (2500 - T) (by norm_num) (by norm_num) (by norm_num) (by norm_num)
        (by norm_num) hx hy
      simp only [burkeCvMin, burkeCvMid, burkeCpHigh, burkeR, burkeMolarMass]
      linear_combination e
  · constructor
    · have e := bern4 (K := ℝ) (122668285235441862787 / 1425093750000000000000000000000)
        (20280735852835657243 / 35627343750000000000000000000)
        (40975890242861557747 / 38002500000000000000000000000)
        (18746006557525322209 / 22801500000000000000000000000)
        (40881534831837780803 / 182412000000000000000000000000)
        (T - 1000) (2500 - T) (by norm_num) (by norm_num) (by norm_num) (by norm_num)
        (by norm_num) hx hy
      simp only [burkeCvMin, burkeCvMid, burkeCpHigh, burkeR, burkeMolarMass]
      linear_combination e
    · have e := bern4 (K := ℝ) (2430052034130347373 / 17593750000000000000000000000)
        (3889838049054780919 / 11875781250000000000000000000)
        (3381503252379480751 / 12667500000000000000000000000)
        (63042720091654733 / 844500000000000000000000000)
        (4928389387406399 / 60804000000000000000000000000)
        (T - 1000) (2500 - T) (by norm_num) (by norm_num) (by norm_num) (by norm_num)
        (by norm_num) hx hy
      simp only [burkeCvMin, burkeCvMid, burkeCpHigh, burkeR, burkeMolarMass]
      linear_combination e
  · constructor
    · have e := bern4 (K := ℝ) (49243 / 270000000000000000)
        (49243 / 67500000000000000)
        (49243 / 45000000000000000)
        (49243 / 67500000000000000)
        (49243 / 270000000000000000)
        (T - 1000) (2500 - T) (by norm_num) (by norm_num) (by norm_num) (by norm_num)
        (by norm_num) hx hy
      simp only [burkeCvMin, burkeCvMid, burkeCpHigh, burkeR, burkeMolarMass]
      linear_combination e
    · have e := bern4 (K := ℝ) (12271 / 810000000000000000)
        (12271 / 202500000000000000)
        (12271 / 135000000000000000)
        (12271 / 202500000000000000)
        (12271 / 810000000000000000)
        (T - 1000) (2500 - T) (by norm_num) (by norm_num) (by norm_num) (by norm_num)
        (by norm_num) hx hy
      simp only [burkeCvMin, burkeCvMid, burkeCpHigh, burkeR, burkeMolarMass]
      linear_combination e
  · constructor
    · have e := bern4 (K := ℝ) (793536739272572195153 / 10443937500000000000000000000000)
        (16662834234970870223 / 41775750000000000000000000000)
        (976007353168873252249 / 1392525000000000000000000000000)
        (544179913147436960861 / 1044393750000000000000000000000)
        (937937784414709204253 / 6684120000000000000000000000000)
        (T - 1000) (2500 - T) (by norm_num) (by norm_num) (by norm_num) (by norm_num)
        (by norm_num) hx hy
      simp only [burkeCvMin, burkeCvMid, burkeCpHigh, burkeR, burkeMolarMass]
      linear_combination e
    · have e := bern4 (K := ℝ) (673256260727427804847 / 10443937500000000000000000000000)
        (6805853765029129777 / 41775750000000000000000000000)
        (197427046831126747751 / 1392525000000000000000000000000)
        (42537286852563039139 / 1044393750000000000000000000000)
        (809735585290795747 / 6684120000000000000000000000000)
        (T - 1000) (2500 - T) (by norm_num) (by norm_num) (by norm_num) (by norm_num)
        (by norm_num) hx hy
      simp only [burkeCvMin, burkeCvMid, burkeCpHigh, burkeR, burkeMolarMass]
      linear_combination e
  · constructor
    · have e := bern4 (K := ℝ) (523274262329510947 / 4484531250000000000000000000)
        (13768800019827121 / 22422656250000000000000000)
        (4181913431913289 / 3986250000000000000000000)
        (269673882466169819 / 358762500000000000000000000)
        (563880741787974671 / 2870100000000000000000000000)
        (T - 1000) (2500 - T) (by norm_num) (by norm_num) (by norm_num) (by norm_num)
        (by norm_num) hx hy
      simp only [burkeCvMin, burkeCvMid, burkeCpHigh, burkeR, burkeMolarMass]
      linear_combination e
    · have e := bern4 (K := ℝ) (1074389713011467159 / 13453593750000000000000000000)
        (11577849940518637 / 67267968750000000000000000)
        (4670179112780399 / 35876250000000000000000000)
        (37126352601490543 / 1076287500000000000000000000)
        (653774636075987 / 8610300000000000000000000000)
        (T - 1000) (2500 - T) (by norm_num) (by norm_num) (by norm_num) (by norm_num)
        (by norm_num) hx hy
      simp only [burkeCvMin, burkeCvMid, burkeCpHigh, burkeR, burkeMolarMass]
      linear_combination e

theorem burkeCv_hot (T : ℝ) (h1 : 2500 ≤ T) (h2 : T ≤ 5000) (i : BSp) :
    burkeCvHot i ≤ burkeCpHigh T i - burkeR i ∧ burkeCpHigh T i - burkeR i ≤ burkeCvMax i := by
  have hx : 0 ≤ T - 2500 := sub_nonneg.mpr h1
  have hy : 0 ≤ 5000 - T := sub_nonneg.mpr h2
  cases i
  · constructor
    · have e := bern4 (K := ℝ) (1241954784817 / 448320000000000000000000000)
        (624133018323817 / 280200000000000000000000000)
        (336790282988823 / 93400000000000000000000000)
        (315871639217557 / 70050000000000000000000000)
        (251974152713 / 224160000000000000000000)
        (T - 2500) (5000 - T) (by norm_num) (by norm_num) (by norm_num) (by norm_num)
        (by norm_num) hx hy
      simp only [burkeCvHot, burkeCvMax, burkeCpHigh, burkeR, burkeMolarMass]
      linear_combination e
    · have e := bern4 (K := ℝ) (515222685215183 / 448320000000000000000000000)
        (667028581676183 / 280200000000000000000000000)
        (308790517011177 / 93400000000000000000000000)
        (6918760782443 / 70050000000000000000000000)
        (6258167287 / 224160000000000000000000)
        (T - 2500) (5000 - T) (by norm_num) (by norm_num) (by norm_num) (by norm_num)
        (by norm_num) hx hy
      simp only [burkeCvHot, burkeCvMax, burkeCpHigh, burkeR, burkeMolarMass]
      linear_combination e
  · constructor
    · have e := bern4 (K := ℝ) (395862431 / 78023437500000000000000)
        (395862431 / 19505859375000000000000)
        (395862431 / 13003906250000000000000)
        (395862431 / 19505859375000000000000)
        (395862431 / 78023437500000000000000)
        (T - 2500) (5000 - T) (by norm_num) (by norm_num) (by norm_num) (by norm_num)
        (by norm_num) hx hy
      simp only [burkeCvHot, burkeCvMax, burkeCpHigh, burkeR, burkeMolarMass]
      linear_combination e
    · have e := bern4 (K := ℝ) (1601537569 / 78023437500000000000000)
        (1601537569 / 19505859375000000000000)
        (1601537569 / 13003906250000000000000)
        (1601537569 / 19505859375000000000000)
        (1601537569 / 78023437500000000000000)
        (T - 2500) (5000 - T) (by norm_num) (by norm_num) (by norm_num) (by norm_num)
        (by norm_num) hx hy
      simp only [burkeCvHot, burkeCvMax, burkeCpHigh, burkeR, burkeMolarMass]
      linear_combination e
  · constructor
    · have e := bern4 (K := ℝ) (3586313 / 196875000000000000000)
        (3586313 / 49218750000000000000)
        (3586313 / 32812500000000000000)
        (3586313 / 49218750000000000000)
        (3586313 / 196875000000000000000)
        (T - 2500) (5000 - T) (by norm_num) (by norm_num) (by norm_num) (by norm_num)
        (by norm_num) hx hy
      simp only [burkeCvHot, burkeCvMax, burkeCpHigh, burkeR, burkeMolarMass]
      linear_combination e
    · have e := bern4 (K := ℝ) (1453687 / 196875000000000000000)
        (1453687 / 49218750000000000000)
        (1453687 / 32812500000000000000)
        (1453687 / 49218750000000000000)
        (1453687 / 196875000000000000000)
        (T - 2500) (5000 - T) (by norm_num) (by norm_num) (by norm_num) (by norm_num)
        (by norm_num) hx hy
      simp only [burkeCvHot, burkeCvMax, burkeCpHigh, burkeR, burkeMolarMass]
      linear_combination e
  · constructor
    · have e := bern4 (K := ℝ) (68953451725739 / 5000000000000000000000000000)
        (5181031926326387 / 1250000000000000000000000000)
        (10626920717163 / 976562500000000000000000)
        (3140180431205687 / 312500000000000000000000000)
        (938240307572201 / 312500000000000000000000000)
        (T - 2500) (5000 - T) (by norm_num) (by norm_num) (by norm_num) (by norm_num)
        (by norm_num) hx hy
      simp only [burkeCvHot, burkeCvMax, burkeCpHigh, burkeR, burkeMolarMass]
      linear_combination e
    · have e := bern4 (K := ℝ) (15035046548274261 / 5000000000000000000000000000)
        (9922968073673613 / 1250000000000000000000000000)
        (7073079282837 / 976562500000000000000000)
        (635819568794313 / 312500000000000000000000000)
        (5759692427799 / 312500000000000000000000000)
        (T - 2500) (5000 - T) (by norm_num) (by norm_num) (by norm_num) (by norm_num)
        (by norm_num) hx hy
      simp only [burkeCvHot, burkeCvMax, burkeCpHigh, burkeR, burkeMolarMass]
      linear_combination e
  · constructor
    · have e := bern4 (K := ℝ) (5542139959939 / 390625000000000000000000000)
        (3465874386514987 / 6250000000000000000000000000)
        (2184813686466663 / 781250000000000000000000000)
        (6287963480305867 / 1562500000000000000000000000)
        (601992036194677 / 390625000000000000000000000)
        (T - 2500) (5000 - T) (by norm_num) (by norm_num) (by norm_num) (by norm_num)
        (by norm_num) hx hy
      simp only [burkeCvHot, burkeCvMax, burkeCpHigh, burkeR, burkeMolarMass]
      linear_combination e
    · have e := bern4 (K := ℝ) (654457860040061 / 390625000000000000000000000)
        (38774125613485013 / 6250000000000000000000000000)
        (5735186313533337 / 781250000000000000000000000)
        (4272036519694133 / 1562500000000000000000000000)
        (58007963805323 / 390625000000000000000000000)
        (T - 2500) (5000 - T) (by norm_num) (by norm_num) (by norm_num) (by norm_num)
        (by norm_num) hx hy
      simp only [burkeCvHot, burkeCvMax, burkeCpHigh, burkeR, burkeMolarMass]
      linear_combination e
  · constructor
    · have e := bern4 (K := ℝ) (76034849901562309 / 3321875000000000000000000000000)
        (13150083021802797743 / 1660937500000000000000000000000)
        (14406920083889157041 / 830468750000000000000000000000)
        (5979130170172858217 / 415234375000000000000000000000)
        (445828121612945687 / 103808593750000000000000000000)
        (T - 2500) (5000 - T) (by norm_num) (by norm_num) (by norm_num) (by norm_num)
        (by norm_num) hx hy
      simp only [burkeCvHot, burkeCvMax, burkeCpHigh, burkeR, burkeMolarMass]
      linear_combination e
    · have e := bern4 (K := ℝ) (14210685150098437691 / 3321875000000000000000000000000)
        (15423356978197202257 / 1660937500000000000000000000000)
        (7023159916110842959 / 830468750000000000000000000000)
        (1164229829827141783 / 415234375000000000000000000000)
        (631878387054313 / 103808593750000000000000000000)
        (T - 2500) (5000 - T) (by norm_num) (by norm_num) (by norm_num) (by norm_num)
        (by norm_num) hx hy
      simp only [burkeCvHot, burkeCvMax, burkeCpHigh, burkeR, burkeMolarMass]
      linear_combination e
  · constructor
    · have e := bern4 (K := ℝ) (13918198841257 / 7875000000000000000000000000)
        (715521092994551041 / 7875000000000000000000000000)
        (150196246931986103 / 656250000000000000000000000)
        (385973123118187441 / 1968750000000000000000000000)
        (31778119111848937 / 492187500000000000000000000)
        (T - 2500) (5000 - T) (by norm_num) (by norm_num) (by norm_num) (by norm_num)
        (by norm_num) hx hy
      simp only [burkeCvHot, burkeCvMax, burkeCpHigh, burkeR, burkeMolarMass]
      linear_combination e
    · have e := bern4 (K := ℝ) (508622881801158743 / 7875000000000000000000000000)
        (1319026107005448959 / 7875000000000000000000000000)
        (104122153068013897 / 656250000000000000000000000)
        (122663676881812559 / 1968750000000000000000000000)
        (11680888151063 / 492187500000000000000000000)
        (T - 2500) (5000 - T) (by norm_num) (by norm_num) (by norm_num) (by norm_num)
        (by norm_num) hx hy
      simp only [burkeCvHot, burkeCvMax, burkeCpHigh, burkeR, burkeMolarMass]
      linear_combination e
  · constructor
    · have e := bern4 (K := ℝ) (21246831837780803 / 1407500000000000000000000000000)
        (2835224846574837389 / 175937500000000000000000000000)
        (5736032740899797741 / 175937500000000000000000000000)
        (150055004382041487 / 5498046875000000000000000000)
        (689661545202545343 / 87968750000000000000000000000)
        (T - 2500) (5000 - T) (by norm_num) (by norm_num) (by norm_num) (by norm_num)
        (by norm_num) hx hy
      simp only [burkeCvHot, burkeCvMax, burkeCpHigh, burkeR, burkeMolarMass]
      linear_combination e
    · have e := bern4 (K := ℝ) (11040577168162219197 / 1407500000000000000000000000000)
        (2695687153425162611 / 175937500000000000000000000000)
        (2560335259100202259 / 175937500000000000000000000000)
        (22785995617958513 / 5498046875000000000000000000)
        (1702454797454657 / 87968750000000000000000000000)
        (T - 2500) (5000 - T) (by norm_num) (by norm_num) (by norm_num) (by norm_num)
        (by norm_num) hx hy
      simp only [burkeCvHot, burkeCvMax, burkeCpHigh, burkeR, burkeMolarMass]
      linear_combination e
  · constructor
    · have e := bern4 (K := ℝ) (147729 / 6250000000000000000)
        (147729 / 1562500000000000000)
        (443187 / 3125000000000000000)
        (147729 / 1562500000000000000)
        (147729 / 6250000000000000000)
        (T - 2500) (5000 - T) (by norm_num) (by norm_num) (by norm_num) (by norm_num)
        (by norm_num) hx hy
      simp only [burkeCvHot, burkeCvMax, burkeCpHigh, burkeR, burkeMolarMass]
      linear_combination e
    · have e := bern4 (K := ℝ) (12271 / 6250000000000000000)
        (12271 / 1562500000000000000)
        (36813 / 3125000000000000000)
        (12271 / 1562500000000000000)
        (12271 / 6250000000000000000)
        (T - 2500) (5000 - T) (by norm_num) (by norm_num) (by norm_num) (by norm_num)
        (by norm_num) hx hy
      simp only [burkeCvHot, burkeCvMax, burkeCpHigh, burkeR, burkeMolarMass]
      linear_combination e
  · constructor
    · have e := bern4 (K := ℝ) (36159224414709204253 / 51575000000000000000000000000000)
        (289535996183709601 / 25183105468750000000000000000)
        (148094111920576927247 / 6446875000000000000000000000000)
        (4801052085252546907 / 322343750000000000000000000000)
        (2388152529285129 / 3223437500000000000000000000000)
        (T - 2500) (5000 - T) (by norm_num) (by norm_num) (by norm_num) (by norm_num)
        (by norm_num) hx hy
      simp only [burkeCvHot, burkeCvMax, burkeCpHigh, burkeR, burkeMolarMass]
      linear_combination e
    · have e := bern4 (K := ℝ) (161888775585290795747 / 51575000000000000000000000000000)
        (97276503816290399 / 25183105468750000000000000000)
        (441888079423072753 / 6446875000000000000000000000000)
        (150147914747453093 / 322343750000000000000000000000)
        (12375611847470714871 / 3223437500000000000000000000000)
        (T - 2500) (5000 - T) (by norm_num) (by norm_num) (by norm_num) (by norm_num)
        (by norm_num) hx hy
      simp only [burkeCvHot, burkeCvMax, burkeCpHigh, burkeR, burkeMolarMass]
      linear_combination e
  · constructor
    · have e := bern4 (K := ℝ) (1047025363924013 / 66437500000000000000000000000)
        (61855954821049589 / 8304687500000000000000000000)
        (51812621947884363 / 4152343750000000000000000000)
        (6042693329323969 / 519042968750000000000000000)
        (12860905125991153 / 4152343750000000000000000000)
        (T - 2500) (5000 - T) (by norm_num) (by norm_num) (by norm_num) (by norm_num)
        (by norm_num) hx hy
      simp only [burkeCvHot, burkeCvMax, burkeCpHigh, burkeR, burkeMolarMass]
      linear_combination e
    · have e := bern4 (K := ℝ) (204749774636075987 / 66437500000000000000000000000)
        (41042445178950411 / 8304687500000000000000000000)
        (25361178052115637 / 4152343750000000000000000000)
        (388456670676031 / 519042968750000000000000000)
        (1394874008847 / 4152343750000000000000000000)
        (T - 2500) (5000 - T) (by norm_num) (by norm_num) (by norm_num) (by norm_num)
        (by norm_num) hx hy
      simp only [burkeCvHot, burkeCvMax, burkeCpHigh, burkeR, burkeMolarMass]
      linear_combination e

/-- The internal energy of a species from the table below 1000 K. -/
noncomputable def burkeULow (T : ℝ) (i : BSp) : ℝ := burkeHLow T i - burkeR i * T

/-- The internal energy of a species from the table above 1000 K. -/
noncomputable def burkeUHigh (T : ℝ) (i : BSp) : ℝ := burkeHHigh T i - burkeR i * T

theorem burkeU_jump (i : BSp) : |burkeUHigh 1000 i - burkeULow 1000 i| ≤ 2 := by
  rw [abs_le]
  cases i <;> norm_num [burkeUHigh, burkeULow, burkeHHigh, burkeHLow]

theorem burkeU_300 (i : BSp) : |burkeULow 300 i| ≤ 220000000 := by
  rw [abs_le]
  cases i <;> norm_num [burkeULow, burkeHLow, burkeR, burkeMolarMass]

/-- Slopes of secants from bounds of the derivative. -/
theorem secant_bounds (f f' : ℝ → ℝ) (lo hi a b x y : ℝ) (hf : ∀ t, HasDerivAt f (f' t) t)
    (hb : ∀ t, lo ≤ t → t ≤ hi → a ≤ f' t ∧ f' t ≤ b) (hx : lo ≤ x) (hxy : x ≤ y) (hy : y ≤ hi) :
    a * (y - x) ≤ f y - f x ∧ f y - f x ≤ b * (y - x) := by
  rcases eq_or_lt_of_le hxy with h | h
  · subst h
    simp
  · obtain ⟨t, ht, he⟩ := exists_hasDerivAt_eq_slope f f' h
      (fun z _ => (hf z).continuousAt.continuousWithinAt) (fun z _ => hf z)
    have hpos : 0 < y - x := by linarith
    obtain ⟨h1, h2⟩ := hb t (by linarith [ht.1]) (by linarith [ht.2])
    rw [he] at h1 h2
    rw [le_div_iff₀ hpos] at h1
    rw [div_le_iff₀ hpos] at h2
    exact ⟨h1, h2⟩

theorem burkeULow_hasDerivAt (T : ℝ) (i : BSp) :
    HasDerivAt (fun t => burkeULow t i) (burkeHLowDeriv T i - burkeR i) T := by
  have h := (burkeHLow_hasDerivAt T i).sub ((hasDerivAt_id T).const_mul (burkeR i))
  exact h.congr_deriv (by rw [mul_one])

theorem burkeUHigh_hasDerivAt (T : ℝ) (i : BSp) :
    HasDerivAt (fun t => burkeUHigh t i) (burkeHHighDeriv T i - burkeR i) T := by
  have h := (burkeHHigh_hasDerivAt T i).sub ((hasDerivAt_id T).const_mul (burkeR i))
  exact h.congr_deriv (by rw [mul_one])

theorem burkeULow_secant (i : BSp) (x y : ℝ) (hx : 300 ≤ x) (hxy : x ≤ y) (hy : y ≤ 1000) :
    (burkeCvMin i - 1) * (y - x) ≤ burkeULow y i - burkeULow x i ∧
    burkeULow y i - burkeULow x i ≤ (burkeCvMid i + 1) * (y - x) := by
  refine secant_bounds (fun t => burkeULow t i) (fun t => burkeHLowDeriv t i - burkeR i) 300 1000 _ _
    x y (fun t => burkeULow_hasDerivAt t i) (fun t h1 h2 => ?_) hx hxy hy
  have hc := burkeHLowDeriv_close t (by norm_num; linarith) h2 i
  obtain ⟨b1, b2⟩ := burkeCv_cold t h1 h2 i
  obtain ⟨k1, k2, k3, k4, k5, k6, k7, k8⟩ := burkeCv_constants i
  rw [abs_le] at hc
  constructor <;> norm_num at * <;> linarith [hc.1, hc.2]

theorem burkeUMid_secant (i : BSp) (x y : ℝ) (hx : 1000 ≤ x) (hxy : x ≤ y) (hy : y ≤ 2500) :
    (burkeCvMin i - 1) * (y - x) ≤ burkeUHigh y i - burkeUHigh x i ∧
    burkeUHigh y i - burkeUHigh x i ≤ (burkeCvMid i + 1) * (y - x) := by
  refine secant_bounds (fun t => burkeUHigh t i) (fun t => burkeHHighDeriv t i - burkeR i) 1000 2500
    _ _ x y (fun t => burkeUHigh_hasDerivAt t i) (fun t h1 h2 => ?_) hx hxy hy
  have hc := burkeHHighDeriv_close t h1 (by linarith) i
  obtain ⟨b1, b2⟩ := burkeCv_mid t h1 h2 i
  obtain ⟨k1, k2, k3, k4, k5, k6, k7, k8⟩ := burkeCv_constants i
  rw [abs_le] at hc
  constructor <;> norm_num at * <;> linarith [hc.1, hc.2]

theorem burkeUHigh_secant (i : BSp) (x y : ℝ) (hx : 1000 ≤ x) (hxy : x ≤ y) (hy : y ≤ 5000) :
    (burkeCvMin i - 1) * (y - x) ≤ burkeUHigh y i - burkeUHigh x i ∧
    burkeUHigh y i - burkeUHigh x i ≤ (burkeCvMax i + 1) * (y - x) := by
  refine secant_bounds (fun t => burkeUHigh t i) (fun t => burkeHHighDeriv t i - burkeR i) 1000 5000
    _ _ x y (fun t => burkeUHigh_hasDerivAt t i) (fun t h1 h2 => ?_) hx hxy hy
  have hc := burkeHHighDeriv_close t h1 (by linarith) i
  obtain ⟨k1, k2, k3, k4, k5, k6, k7, k8⟩ := burkeCv_constants i
  have b : burkeCvMin i ≤ burkeCpHigh t i - burkeR i ∧ burkeCpHigh t i - burkeR i ≤ burkeCvMax i := by
    rcases le_total t 2500 with h | h
    · obtain ⟨b1, b2⟩ := burkeCv_mid t h1 h i
      exact ⟨b1, by linarith⟩
    · obtain ⟨b1, b2⟩ := burkeCv_hot t h h2 i
      exact ⟨by linarith, b2⟩
  obtain ⟨b1, b2⟩ := b
  rw [abs_le] at hc
  constructor <;> norm_num at * <;> linarith [hc.1, hc.2]

/-- The internal energy of a species as the reactor computes it. -/
noncomputable def burkeU (T : ℝ) (i : BSp) : ℝ := (burkeThermo T).1 i - burkeR i * T

/-- The heat capacity at constant volume of a species as the reactor computes it. -/
noncomputable def burkeCv (T : ℝ) (i : BSp) : ℝ := (burkeThermo T).2 i - burkeR i

theorem burkeU_eq (T : ℝ) (hT : 300 ≤ T) (i : BSp) :
    burkeU T i = if T > 1000 then burkeUHigh T i else burkeULow T i := by
  unfold burkeU burkeThermo
  have h : T ≥ 299.999999 := by norm_num; linarith
  simp only [h, if_true]
  split_ifs <;> rfl

theorem burkeCv_eq (T : ℝ) (hT : 300 ≤ T) (i : BSp) :
    burkeCv T i = (if T > 1000 then burkeCpHigh T i else burkeCpLow T i) - burkeR i := by
  unfold burkeCv burkeThermo
  have h : T ≥ 299.999999 := by norm_num; linarith
  simp only [h, if_true]
  split_ifs <;> rfl

theorem burkeCv_range (T : ℝ) (hT : 300 ≤ T) (hT2 : T ≤ 5000) (i : BSp) :
    burkeCvMin i ≤ burkeCv T i ∧ burkeCv T i ≤ burkeCvMax i ∧
    (T ≤ 2500 → burkeCv T i ≤ burkeCvMid i) ∧ (2500 ≤ T → burkeCvHot i ≤ burkeCv T i) := by
  obtain ⟨k1, k2, k3, k4, k5, k6, k7, k8⟩ := burkeCv_constants i
  rw [burkeCv_eq T hT i]
  split_ifs with h
  · rcases le_total T 2500 with h2 | h2
    · obtain ⟨b1, b2⟩ := burkeCv_mid T h.le h2 i
      refine ⟨b1, by linarith, fun _ => b2, fun h3 => ?_⟩
      have : T = 2500 := le_antisymm h2 h3
      subst this
      exact (burkeCv_hot 2500 le_rfl (by norm_num) i).1
    · obtain ⟨b1, b2⟩ := burkeCv_hot T h2 hT2 i
      refine ⟨by linarith, b2, fun h3 => ?_, fun _ => b1⟩
      have : T = 2500 := le_antisymm h3 h2
      subst this
      exact (burkeCv_mid 2500 (by norm_num) le_rfl i).2
  · push Not at h
    obtain ⟨b1, b2⟩ := burkeCv_cold T hT h i
    exact ⟨b1, by linarith, fun _ => b2, fun h3 => by linarith⟩

/-- Secants of the internal energy which do not cross 1000 K, or which are at least one kelvin
long. -/
theorem burkeU_secant (i : BSp) (x y : ℝ) (hx : 300 ≤ x) (hxy : x ≤ y) (hy : y ≤ 5000)
    (hlong : 1000 < x ∨ y ≤ 1000 ∨ 1 ≤ y - x) :
    (burkeCvMin i - 3) * (y - x) ≤ burkeU y i - burkeU x i ∧
    burkeU y i - burkeU x i ≤ (burkeCvMax i + 3) * (y - x) ∧
    (y ≤ 2500 → burkeU y i - burkeU x i ≤ (burkeCvMid i + 3) * (y - x)) := by
  obtain ⟨k1, k2, k3, k4, k5, k6, k7, k8⟩ := burkeCv_constants i
  rw [burkeU_eq x hx i, burkeU_eq y (by linarith) i]
  have hd : 0 ≤ y - x := by linarith
  rcases lt_or_ge 1000 x with h1 | h1
  · have h2 : y > 1000 := by linarith
    rw [if_pos h1, if_pos h2]
    obtain ⟨a1, a2⟩ := burkeUHigh_secant i x y h1.le hxy hy
    refine ⟨by nlinarith, by nlinarith, fun h3 => ?_⟩
    obtain ⟨a3, a4⟩ := burkeUMid_secant i x y h1.le hxy h3
    nlinarith
  · rw [if_neg (not_lt.mpr h1)]
    rcases lt_or_ge 1000 y with h2 | h2
    · rw [if_pos h2]
      have hl : 1 ≤ y - x := by
        rcases hlong with h | h | h
        · linarith
        · linarith
        · exact h
      obtain ⟨c1, c2⟩ := burkeULow_secant i x 1000 hx h1 le_rfl
      have hj := abs_le.mp (burkeU_jump i)
      obtain ⟨a1, a2⟩ := burkeUHigh_secant i 1000 y le_rfl h2.le hy
      refine ⟨by nlinarith [hj.1], by nlinarith [hj.2], fun h3 => ?_⟩
      obtain ⟨a3, a4⟩ := burkeUMid_secant i 1000 y le_rfl h2.le h3
      nlinarith [hj.2]
    · rw [if_neg (not_lt.mpr h2)]
      obtain ⟨a1, a2⟩ := burkeULow_secant i x y hx hxy h2
      exact ⟨by nlinarith, by nlinarith, fun _ => by nlinarith⟩

/-- The size of the internal energy. -/
theorem burkeU_size (i : BSp) (T : ℝ) (h1 : 300 ≤ T) (h2 : T ≤ 2500) :
    |burkeU T i| ≤ 300000000 := by
  obtain ⟨k1, k2, k3, k4, k5, k6, k7, k8⟩ := burkeCv_constants i
  have h0 := abs_le.mp (burkeU_300 i)
  have e0 : burkeU 300 i = burkeULow 300 i := by
    rw [burkeU_eq 300 le_rfl i, if_neg (by norm_num)]
  have hr := burkeCv_range T h1 (by linarith) i
  have hr1 := hr.1
  have hr2 := hr.2.1
  have hm1 : 0 ≤ (burkeCvMin i - 3) * (T - 300) := mul_nonneg (by linarith) (by linarith)
  have hm2 : (burkeCvMax i + 3) * (T - 300) ≤ (burkeCvMax i + 3) * 2200 :=
    mul_le_mul_of_nonneg_left (by linarith) (by linarith)
  have hs : 0 ≤ burkeU T i - burkeU 300 i ∧
      burkeU T i - burkeU 300 i ≤ (burkeCvMax i + 3) * 2200 := by
    rcases le_total T 1000 with h | h
    · obtain ⟨a1, a2, -⟩ := burkeU_secant i 300 T le_rfl h1 (by linarith) (Or.inr (Or.inl h))
      constructor <;> linarith
    · obtain ⟨a1, a2, -⟩ := burkeU_secant i 300 T le_rfl h1 (by linarith)
        (Or.inr (Or.inr (by linarith)))
      constructor <;> linarith
  rw [e0] at hs
  rw [abs_le]
  constructor <;> linarith [hs.1, hs.2, h0.1, h0.2]

end Fub
