import Verif.Prop.ConductionForm
import Mathlib.Tactic.LinearCombination
/-!
Nodal values whose gradient vanishes in all points of an explicit rule are constant: every difference of two values is a combination of the
derivatives in the points.
-/
namespace Verif.Fem

theorem triangle3_kernel (u : Nat → ℝ) (hz : ∀ p ∈ ruleTriangle3 (K := ℝ), ∀ j < 2, ∑ n ∈ Finset.range 3, u n * slopeOf (setTriangle3 (p.1.getD 0 0) (p.1.getD 1 0)) n j = 0) :
    ∀ n < 3, u n = u 0 := by
  unfold ruleTriangle3 at hz
  simp only [List.forall_mem_cons] at hz
  obtain ⟨h0, h1, h2, h3, h4, h5, -⟩ := hz
  have h0_0 := h0 0 (by decide)
  have h0_1 := h0 1 (by decide)
  clear h0 h1 h2 h3 h4 h5
  simp only [Finset.sum_range_succ, Finset.sum_range_zero, slopeOf, setTriangle3, List.getElem?_cons_zero, List.getElem?_cons_succ, Option.bind_some, Option.getD_some,
    List.getD_cons_zero, List.getD_cons_succ] at h0_0 h0_1
  intro n hn
  interval_cases n
  · rfl
  · linear_combination (1) * h0_0
  · linear_combination (1) * h0_1

theorem triangle6_kernel (u : Nat → ℝ) (hz : ∀ p ∈ ruleTriangle6 (K := ℝ), ∀ j < 2, ∑ n ∈ Finset.range 6, u n * slopeOf (setTriangle6 (p.1.getD 0 0) (p.1.getD 1 0)) n j = 0) :
    ∀ n < 6, u n = u 0 := by
  unfold ruleTriangle6 at hz
  simp only [List.forall_mem_cons] at hz
  obtain ⟨h0, h1, h2, h3, h4, h5, -⟩ := hz
  have h0_0 := h0 0 (by decide)
  have h0_1 := h0 1 (by decide)
  have h1_0 := h1 0 (by decide)
  have h1_1 := h1 1 (by decide)
  have h2_1 := h2 1 (by decide)
  clear h0 h1 h2 h3 h4 h5
  simp only [Finset.sum_range_succ, Finset.sum_range_zero, slopeOf, setTriangle6, List.getElem?_cons_zero, List.getElem?_cons_succ, Option.bind_some, Option.getD_some,
    List.getD_cons_zero, List.getD_cons_succ] at h0_0 h0_1 h1_0 h1_1 h2_1
  intro n hn
  interval_cases n
  · rfl
  · linear_combination (316847572980459 / 725271359470688) * h0_0 + (91576213509771 / 725271359470688) * h0_1 +
      (408423786490229 / 725271359470688) * h1_0 + (-91576213509771 / 725271359470688) * h1_1
  · linear_combination (204211893245115 / 362635679735344) * h0_1 + (-91576213509771 / 725271359470688) * h1_1 +
      (408423786490229 / 725271359470688) * h2_1
  · linear_combination (566847572980459 / 1450542718941376) * h0_0 + (91576213509771 / 1450542718941376) * h0_1 +
      (158423786490229 / 1450542718941376) * h1_0 + (-91576213509771 / 1450542718941376) * h1_1
  · linear_combination (566847572980459 / 1450542718941376) * h0_0 + (250000000000001 / 1450542718941376) * h0_1 +
      (158423786490229 / 1450542718941376) * h1_0 + (158423786490229 / 725271359470688) * h1_1 + (158423786490229 / 1450542718941376) * h2_1
  · linear_combination (329211893245115 / 725271359470688) * h0_1 + (-91576213509771 / 1450542718941376) * h1_1 +
      (158423786490229 / 1450542718941376) * h2_1

theorem tetra4_kernel (u : Nat → ℝ) (hz : ∀ p ∈ ruleTetra4 (K := ℝ), ∀ j < 3, ∑ n ∈ Finset.range 4, u n * slopeOf (setTetra4 (p.1.getD 0 0) (p.1.getD 1 0) (p.1.getD 2 0)) n j = 0) :
    ∀ n < 4, u n = u 0 := by
  unfold ruleTetra4 at hz
  simp only [List.forall_mem_cons] at hz
  obtain ⟨h0, h1, h2, h3, -⟩ := hz
  have h0_0 := h0 0 (by decide)
  have h0_1 := h0 1 (by decide)
  have h0_2 := h0 2 (by decide)
  clear h0 h1 h2 h3
  simp only [Finset.sum_range_succ, Finset.sum_range_zero, slopeOf, setTetra4, List.getElem?_cons_zero, List.getElem?_cons_succ, Option.bind_some, Option.getD_some,
    List.getD_cons_zero, List.getD_cons_succ] at h0_0 h0_1 h0_2
  intro n hn
  interval_cases n
  · rfl
  · linear_combination (-1) * h0_0 + (1) * h0_2
  · linear_combination (-1) * h0_0 + (1) * h0_1
  · linear_combination (-1) * h0_0

theorem tetra10_kernel (u : Nat → ℝ) (hz : ∀ p ∈ ruleTetra10 (K := ℝ), ∀ j < 3, ∑ n ∈ Finset.range 10, u n * slopeOf (setTetra10 (p.1.getD 0 0) (p.1.getD 1 0) (p.1.getD 2 0)) n j = 0) :
    ∀ n < 10, u n = u 0 := by
  unfold ruleTetra10 at hz
  simp only [List.forall_mem_cons] at hz
  obtain ⟨h0, h1, h2, h3, h4, h5, h6, h7, h8, h9, h10, h11, h12, h13, h14, -⟩ := hz
  have h0_0 := h0 0 (by decide)
  have h0_1 := h0 1 (by decide)
  have h0_2 := h0 2 (by decide)
  have h1_0 := h1 0 (by decide)
  have h1_1 := h1 1 (by decide)
  have h1_2 := h1 2 (by decide)
  have h2_0 := h2 0 (by decide)
  have h2_1 := h2 1 (by decide)
  have h3_1 := h3 1 (by decide)
  clear h0 h1 h2 h3 h4 h5 h6 h7 h8 h9 h10 h11 h12 h13 h14
  simp only [Finset.sum_range_succ, Finset.sum_range_zero, slopeOf, setTetra10, List.getElem?_cons_zero, List.getElem?_cons_succ, Option.bind_some, Option.getD_some,
    List.getD_cons_zero, List.getD_cons_succ] at h0_0 h0_1 h0_2 h1_0 h1_1 h1_2 h2_0 h2_1 h3_1
  intro n hn
  interval_cases n
  · rfl
  · linear_combination (-6944444444444443888888888888889 / 694444444444443888888888888889) * h0_0 + (5000000000000000 / 833333333333333) * h0_1 +
      (-1666666666666667 / 833333333333333) * h0_2 + (2500000000000000 / 833333333333333) * h1_0 +
      (2500000000000000 / 2777777777777776388888888888889) * h1_1 + (2500000000000000 / 833333333333333) * h1_2 +
      (4166666666666667500000000000000 / 694444444444443888888888888889) * h2_0 +
      (-4166666666666667500000000000000 / 925925925925925462962962962963) * h2_1 + (-5000000000000000 / 3333333333333333) * h3_1
  · linear_combination (-3333333333333333 / 833333333333333) * h0_0 + (3333333333333333 / 833333333333333) * h0_1 +
      (5000000000000000 / 3333333333333333) * h1_0 + (4166666666666667500000000000000 / 2777777777777776388888888888889) * h2_0 +
      (-4166666666666667500000000000000 / 2777777777777776388888888888889) * h2_1 + (-5000000000000000 / 3333333333333333) * h3_1
  · linear_combination (-3333333333333333 / 833333333333333) * h0_0 + (5000000000000000 / 3333333333333333) * h1_0 +
      (4166666666666667500000000000000 / 2777777777777776388888888888889) * h2_0
  · linear_combination (-5833333333333333 / 1666666666666666) * h0_0 + (1250000000000000 / 833333333333333) * h0_1 + (1 / 2) * h0_2 +
      (5000000000000000 / 3333333333333333) * h1_0 + (4166666666666667500000000000000 / 2777777777777776388888888888889) * h2_0 +
      (-3125000000000000000000000000000 / 2777777777777776388888888888889) * h2_1 + (-1250000000000000 / 3333333333333333) * h3_1
  · linear_combination (-2083333333333333 / 833333333333333) * h0_0 + (1 / 2) * h0_1 + (1 / 2) * h0_2 + (1250000000000000 / 1111111111111111) * h1_0 +
      (347222222222222500000000000000 / 925925925925925462962962962963) * h2_0
  · linear_combination (-3333333333333333 / 1666666666666666) * h0_0 + (3333333333333333 / 1666666666666666) * h0_1 +
      (1250000000000000 / 1111111111111111) * h1_0 + (-2500000000000000 / 3333333333333333) * h1_1 +
      (347222222222222500000000000000 / 925925925925925462962962962963) * h2_0 +
      (-347222222222222500000000000000 / 925925925925925462962962962963) * h2_1 + (-1250000000000000 / 3333333333333333) * h3_1
  · linear_combination (-3333333333333333 / 1666666666666666) * h0_0 + (1250000000000000 / 1111111111111111) * h1_0 +
      (347222222222222500000000000000 / 925925925925925462962962962963) * h2_0
  · linear_combination (-2083333333333333 / 833333333333333) * h0_0 + (1250000000000000 / 833333333333333) * h0_1 + (1 / 2) * h0_2 +
      (1250000000000000 / 1111111111111111) * h1_0 + (-2500000000000000 / 3333333333333333) * h1_1 +
      (347222222222222500000000000000 / 925925925925925462962962962963) * h2_0 +
      (-347222222222222500000000000000 / 925925925925925462962962962963) * h2_1 + (-1250000000000000 / 3333333333333333) * h3_1
  · linear_combination (-3333333333333333 / 833333333333333) * h0_0 + (3333333333333333 / 1666666666666666) * h0_1 +
      (5000000000000000 / 3333333333333333) * h1_0 + (4166666666666667500000000000000 / 2777777777777776388888888888889) * h2_0 +
      (-3125000000000000000000000000000 / 2777777777777776388888888888889) * h2_1 + (-1250000000000000 / 3333333333333333) * h3_1

set_option maxHeartbeats 2000000 in
theorem pyramid13_kernel (u : Nat → ℝ) (hz : ∀ p ∈ rulePyramid13 (K := ℝ), ∀ j < 3, ∑ n ∈ Finset.range 13, u n * slopeOf (setPyramid13 (p.1.getD 0 0) (p.1.getD 1 0) (p.1.getD 2 0)) n j = 0) :
    ∀ n < 13, u n = u 0 := by
  unfold rulePyramid13 at hz
  simp only [List.forall_mem_cons] at hz
  obtain ⟨h0, h1, h2, h3, h4, h5, h6, h7, h8, h9, h10, h11, h12, h13, -⟩ := hz
  have h0_0 := h0 0 (by decide)
  have h0_1 := h0 1 (by decide)
  have h0_2 := h0 2 (by decide)
  have h1_0 := h1 0 (by decide)
  have h1_1 := h1 1 (by decide)
  have h1_2 := h1 2 (by decide)
  have h2_0 := h2 0 (by decide)
  have h2_1 := h2 1 (by decide)
  have h2_2 := h2 2 (by decide)
  have h3_0 := h3 0 (by decide)
  have h3_2 := h3 2 (by decide)
  have h4_2 := h4 2 (by decide)
  clear h0 h1 h2 h3 h4 h5 h6 h7 h8 h9 h10 h11 h12 h13
  simp only [Finset.sum_range_succ, Finset.sum_range_zero, slopeOf, setPyramid13, List.getElem?_cons_zero, List.getElem?_cons_succ, Option.bind_some, Option.getD_some,
    List.getD_cons_zero, List.getD_cons_succ] at h0_0 h0_1 h0_2 h1_0 h1_1 h1_2 h2_0 h2_1 h2_2 h3_0 h3_2 h4_2
  intro n hn
  interval_cases n
  · rfl
  · linear_combination (20702952851146321200000000000000000 / 23030303030303083037565155576834809) * h0_0 +
      (3859409429770735760000000000000000000000000000000000 / 8101079103550867346125563826104060042961949051136627) * h0_1 +
      (9648523574426839400000000000000000 / 23030303030303083037565155576834809) * h0_2 +
      (20702952851146321200000000000000000 / 23030303030303083037565155576834809) * h1_0 +
      (-3859409429770735760000000000000000000000000000000000 / 8101079103550867346125563826104060042961949051136627) * h1_1 +
      (-9648523574426839400000000000000000 / 23030303030303083037565155576834809) * h1_2 +
      (234371035359730330937194415074662217184779620454650800000000000000000 / 2849614377875810986244467979303091577735650722798748151699186874066481) * h2_0 +
      (465470035831352367513031115366961800000000000000000 / 8101079103550867346125563826104060042961949051136627) * h2_2 +
      (234371035359730330937194415074662217184779620454650800000000000000000 / 2849614377875810986244467979303091577735650722798748151699186874066481) * h3_0 +
      (-465470035831352367513031115366961800000000000000000 / 8101079103550867346125563826104060042961949051136627) * h3_2
  · linear_combination (121405905702292642400000000000000000 / 123733255881449404237565155576834809) * h0_0 +
      (3859409429770735760000000000000000000000000000000000 / 8101079103550867346125563826104060042961949051136627) * h0_1 +
      (19297047148853678800000000000000000 / 53381779455876243637565155576834809) * h0_2 +
      (1438439040416447233895238614736463314369559240909301600000000000000000 / 2849614377875810986244467979303091577735650722798748151699186874066481) * h1_0 +
      (1438439040416447233895238614736463314369559240909301600000000000000000 / 2849614377875810986244467979303091577735650722798748151699186874066481) * h1_1 +
      (3859409429770735760000000000000000000000000000000000 / 8101079103550867346125563826104060042961949051136627) * h2_0 +
      (121405905702292642400000000000000000 / 123733255881449404237565155576834809) * h2_1 +
      (-19297047148853678800000000000000000 / 53381779455876243637565155576834809) * h2_2
  · linear_combination (11141825927006601095026062230733923600000000000000000 / 8101079103550867346125563826104060042961949051136627) * h0_0 +
      (9648523574426839400000000000000000 / 23030303030303083037565155576834809) * h0_2 +
      (20702952851146321200000000000000000 / 23030303030303083037565155576834809) * h1_0 +
      (121405905702292642400000000000000000 / 123733255881449404237565155576834809) * h1_1 +
      (-465470035831352367513031115366961800000000000000000 / 8101079103550867346125563826104060042961949051136627) * h1_2 +
      (-20702952851146321200000000000000000 / 23030303030303083037565155576834809) * h2_0 +
      (121405905702292642400000000000000000 / 123733255881449404237565155576834809) * h2_1 +
      (465470035831352367513031115366961800000000000000000 / 8101079103550867346125563826104060042961949051136627) * h2_2 +
      (-11141825927006601095026062230733923600000000000000000 / 8101079103550867346125563826104060042961949051136627) * h3_0 +
      (-9648523574426839400000000000000000 / 23030303030303083037565155576834809) * h3_2
  · linear_combination (31612043760237072087304533269495573 / 123733255881449404237565155576834809) * h0_0 +
      (9648523574426839400000000000000000 / 23030303030303083037565155576834809) * h0_1 +
      (17727205954384035990523570207584605814809745255683135 / 16202158207101734692251127652208120085923898102273254) * h0_2 +
      (-465808289107291445717813943215536095875443876350315855097560622199443 / 2849614377875810986244467979303091577735650722798748151699186874066481) * h1_0 +
      (-341570195126951121646078036501488183916962584233543903398373748132962 / 2849614377875810986244467979303091577735650722798748151699186874066481) * h1_1 +
      (-2327350179156761837565155576834809 / 46060606060606166075130311153669618) * h1_2 +
      (2327350179156761837565155576834809 / 23030303030303083037565155576834809) * h2_0 +
      (-1171855176798651654685972075373311085923898102273254 / 18777434994726116073638594941471021842961949051136627) * h2_1 +
      (112277465347702723926560635363787157038050948863373 / 16202158207101734692251127652208120085923898102273254) * h2_2 +
      (2327350179156761837565155576834809 / 53381779455876243637565155576834809) * h3_0 +
      (-2327350179156761837565155576834809 / 46060606060606166075130311153669618) * h3_2 + (1) * h4_2
  · linear_combination (50351476425573160600000000000000000 / 53381779455876243637565155576834809) * h0_0 +
      (1929704714885367880000000000000000000000000000000000 / 8101079103550867346125563826104060042961949051136627) * h0_1 +
      (4824261787213419700000000000000000 / 23030303030303083037565155576834809) * h0_2 +
      (-358791751382067332486968884633038200000000000000000 / 8101079103550867346125563826104060042961949051136627) * h1_0 +
      (-1929704714885367880000000000000000000000000000000000 / 8101079103550867346125563826104060042961949051136627) * h1_1 +
      (-4824261787213419700000000000000000 / 23030303030303083037565155576834809) * h1_2 +
      (310155989168401953468597207537331108592389810227325400000000000000000 / 2849614377875810986244467979303091577735650722798748151699186874066481) * h2_0 +
      (232735017915676183756515557683480900000000000000000 / 8101079103550867346125563826104060042961949051136627) * h2_2 +
      (-166460773870443857495656294877679400000000000000000 / 6259144998242038691212864980490340614320649683712209) * h3_0 +
      (-232735017915676183756515557683480900000000000000000 / 8101079103550867346125563826104060042961949051136627) * h3_2
  · linear_combination (18923624745853798002539093346100885400000000000000000 / 18777434994726116073638594941471021842961949051136627) * h0_0 +
      (971634814598679780994787553853215280000000000000000000000000000000000 / 2849614377875810986244467979303091577735650722798748151699186874066481) * h0_1 +
      (3161204376023707208730453326949557300000000000000000 / 8101079103550867346125563826104060042961949051136627) * h0_2 +
      (2193011873012995534924035184125739845777169430681976200000000000000000 / 2849614377875810986244467979303091577735650722798748151699186874066481) * h1_0 +
      (1640431641420346938450225530441624017184779620454650800000000000000000 / 2849614377875810986244467979303091577735650722798748151699186874066481) * h1_1 +
      (-4824261787213419700000000000000000 / 23030303030303083037565155576834809) * h1_2 +
      (201000974993068351988663661487979582864129936742441800000000000000000 / 949871459291936995414822659767697192578550240932916050566395624688827) * h2_0 +
      (1212121212121233215026062230733923600000000000000000 / 18777434994726116073638594941471021842961949051136627) * h2_1 +
      (-1231499661138339328730453326949557300000000000000000 / 8101079103550867346125563826104060042961949051136627) * h2_2 +
      (-166460773870443857495656294877679400000000000000000 / 6259144998242038691212864980490340614320649683712209) * h3_0 +
      (-232735017915676183756515557683480900000000000000000 / 8101079103550867346125563826104060042961949051136627) * h3_2
  · linear_combination (6951109820246388627513031115366961800000000000000000 / 6259144998242038691212864980490340614320649683712209) * h0_0 +
      (1929704714885367880000000000000000000000000000000000 / 8101079103550867346125563826104060042961949051136627) * h0_1 +
      (3161204376023707208730453326949557300000000000000000 / 8101079103550867346125563826104060042961949051136627) * h0_2 +
      (2193011873012995534924035184125739845777169430681976200000000000000000 / 2849614377875810986244467979303091577735650722798748151699186874066481) * h1_0 +
      (2117226919204323912392632391663070954369559240909301600000000000000000 / 2849614377875810986244467979303091577735650722798748151699186874066481) * h1_1 +
      (-232735017915676183756515557683480900000000000000000 / 8101079103550867346125563826104060042961949051136627) * h1_2 +
      (-1903834511244188262504343705122320600000000000000000 / 2700359701183622448708521275368020014320649683712209) * h2_0 +
      (121405905702292642400000000000000000 / 123733255881449404237565155576834809) * h2_1 +
      (-1231499661138339328730453326949557300000000000000000 / 8101079103550867346125563826104060042961949051136627) * h2_2 +
      (-3450492141857720200000000000000000 / 17793926485292081212521718525611603) * h3_0 +
      (-4824261787213419700000000000000000 / 23030303030303083037565155576834809) * h3_2
  · linear_combination (3450492141857720200000000000000000 / 17793926485292081212521718525611603) * h0_0 +
      (8000000000000000000000000000000000000000000000000000 / 8101079103550867346125563826104060042961949051136627) * h0_1 +
      (4824261787213419700000000000000000 / 23030303030303083037565155576834809) * h0_2 +
      (-358791751382067332486968884633038200000000000000000 / 8101079103550867346125563826104060042961949051136627) * h1_0 +
      (-67330867001299901518328971901720234271740126515116400000000000000000 / 949871459291936995414822659767697192578550240932916050566395624688827) * h1_1 +
      (-232735017915676183756515557683480900000000000000000 / 8101079103550867346125563826104060042961949051136627) * h1_2 +
      (358791751382067332486968884633038200000000000000000 / 8101079103550867346125563826104060042961949051136627) * h2_0 +
      (1212121212121233215026062230733923600000000000000000 / 18777434994726116073638594941471021842961949051136627) * h2_1 +
      (232735017915676183756515557683480900000000000000000 / 8101079103550867346125563826104060042961949051136627) * h2_2 +
      (-3450492141857720200000000000000000 / 17793926485292081212521718525611603) * h3_0 +
      (-4824261787213419700000000000000000 / 23030303030303083037565155576834809) * h3_2
  · linear_combination (545385542913801970152670257191023857038050948863373 / 12518289996484077382425729960980681228641299367424418) * h0_0 +
      (7236392680820129550000000000000000 / 23030303030303083037565155576834809) * h0_1 +
      (11575323532535566378499169325616894071603248418561045 / 10801438804734489794834085101472080057282598734848836) * h0_2 +
      (-514155335913393078341367990152464326230221418631888351699186874066481 / 1899742918583873990829645319535394385157100481865832101132791249377654) * h1_0 +
      (-150528759372493772445812434315127452554095462334369750566395624688827 / 949871459291936995414822659767697192578550240932916050566395624688827) * h1_1 +
      (-11975873753583601237565155576834809 / 92121212121212332150260622307339236) * h1_2 +
      (7151611966370181537565155576834809 / 46060606060606166075130311153669618) * h2_0 +
      (-722176592137059810569404233720478064320649683712209 / 6259144998242038691212864980490340614320649683712209) * h2_1 +
      (192582500393018363813197250243582985679350316287791 / 10801438804734489794834085101472080057282598734848836) * h2_2 +
      (3991957917861200412521718525611603 / 35587852970584162425043437051223206) * h3_0 +
      (-11975873753583601237565155576834809 / 92121212121212332150260622307339236) * h3_2 + (51757382127865803 / 303514764255731606) * h4_2
  · linear_combination 
      (1761535908996802847280787248921033855201843549739332548300813125933519 / 1899742918583873990829645319535394385157100481865832101132791249377654) * h0_0 +
      (3510306902897221484365226663474778650000000000000000 / 8101079103550867346125563826104060042961949051136627) * h0_1 +
      (4457752938418733893490481915372252871603248418561045 / 10801438804734489794834085101472080057282598734848836) * h0_2 +
      (1164614290840426369893343631531439859498038454852995248300813125933519 / 1899742918583873990829645319535394385157100481865832101132791249377654) * h1_0 +
      (-263660072503806552195378063802895392554095462334369750566395624688827 / 949871459291936995414822659767697192578550240932916050566395624688827) * h1_1 +
      (48727079097562719962434844423165191 / 92121212121212332150260622307339236) * h1_2 +
      (487022393554706092870183592862419953439455817685085451699186874066481 / 5699228755751621972488935958606183155471301445597496303398373748132962) * h2_0 +
      (-722176592137059810569404233720478064320649683712209 / 6259144998242038691212864980490340614320649683712209) * h2_1 +
      (-2350721856928975933534346018535327442961949051136627 / 32404316414203469384502255304416240171847796204546508) * h2_2 +
      (241423611660205489540333114251379020550871102344097351699186874066481 / 5699228755751621972488935958606183155471301445597496303398373748132962) * h3_0 +
      (-1284132642146354378612532710737098242961949051136627 / 32404316414203469384502255304416240171847796204546508) * h3_2 +
      (51757382127865803 / 303514764255731606) * h4_2
  · linear_combination (32200989623213136580510135233040918771114152846590119 / 37554869989452232147277189882942043685923898102273254) * h0_0 +
      (3510306902897221484365226663474778650000000000000000 / 8101079103550867346125563826104060042961949051136627) * h0_1 +
      (16301728173364232705445383515382835014809745255683135 / 32404316414203469384502255304416240171847796204546508) * h0_2 +
      (2417185153888391320373740867352462695678894985013636544902439377800557 / 5699228755751621972488935958606183155471301445597496303398373748132962) * h1_0 +
      (1528239302696803960361485115959545479522493233451541548300813125933519 / 2849614377875810986244467979303091577735650722798748151699186874066481) * h1_1 +
      (-11975873753583601237565155576834809 / 92121212121212332150260622307339236) * h1_2 +
      (4445337018170061587342986037686655542961949051136627 / 16202158207101734692251127652208120085923898102273254) * h2_0 +
      (13115886720824685903317849529572489407038050948863373 / 18777434994726116073638594941471021842961949051136627) * h2_1 +
      (19001989925421521521491716212198596157038050948863373 / 32404316414203469384502255304416240171847796204546508) * h2_2 +
      (3991957917861200412521718525611603 / 35587852970584162425043437051223206) * h3_0 +
      (-11975873753583601237565155576834809 / 92121212121212332150260622307339236) * h3_2 + (51757382127865803 / 303514764255731606) * h4_2
  · linear_combination 
      (1987798535259428406779918507896569735201843549739332548300813125933519 / 1899742918583873990829645319535394385157100481865832101132791249377654) * h0_0 +
      (7236392680820129550000000000000000 / 23030303030303083037565155576834809) * h0_1 +
      (4457752938418733893490481915372252871603248418561045 / 10801438804734489794834085101472080057282598734848836) * h0_2 +
      (1164614290840426369893343631531439859498038454852995248300813125933519 / 1899742918583873990829645319535394385157100481865832101132791249377654) * h1_0 +
      (1867633242090742299610182004422849299522493233451541548300813125933519 / 2849614377875810986244467979303091577735650722798748151699186874066481) * h1_1 +
      (-1284132642146354378612532710737098242961949051136627 / 32404316414203469384502255304416240171847796204546508) * h1_2 +
      (-33551340884776139662434844423165191 / 46060606060606166075130311153669618) * h2_0 +
      (13115886720824685903317849529572489407038050948863373 / 18777434994726116073638594941471021842961949051136627) * h2_1 +
      (-2350721856928975933534346018535327442961949051136627 / 32404316414203469384502255304416240171847796204546508) * h2_2 +
      (-14429841605140884118952622866097710757038050948863373 / 16202158207101734692251127652208120085923898102273254) * h3_0 +
      (48727079097562719962434844423165191 / 92121212121212332150260622307339236) * h3_2 + (51757382127865803 / 303514764255731606) * h4_2

theorem prisma6_kernel (u : Nat → ℝ) (hz : ∀ p ∈ rulePrisma6 Real.sqrt, ∀ j < 3, ∑ n ∈ Finset.range 6, u n * slopeOf (setPrisma6 (p.1.getD 0 0) (p.1.getD 1 0) (p.1.getD 2 0)) n j = 0) :
    ∀ n < 6, u n = u 0 := by
  have hq : Real.sqrt (3 / 5) ^ 2 = 3 / 5 := Real.sq_sqrt (by norm_num)
  unfold rulePrisma6 at hz
  generalize Real.sqrt (3 / 5) = q at hq hz
  simp only [List.forall_mem_cons] at hz
  obtain ⟨h0, h1, h2, h3, h4, h5, h6, h7, h8, -⟩ := hz
  have h0_0 := h0 0 (by decide)
  have h0_1 := h0 1 (by decide)
  have h0_2 := h0 2 (by decide)
  have h1_2 := h1 2 (by decide)
  have h2_2 := h2 2 (by decide)
  clear h0 h1 h2 h3 h4 h5 h6 h7 h8
  simp only [Finset.sum_range_succ, Finset.sum_range_zero, slopeOf, setPrisma6, List.getElem?_cons_zero, List.getElem?_cons_succ, Option.bind_some, Option.getD_some,
    List.getD_cons_zero, List.getD_cons_succ] at h0_0 h0_1 h0_2 h1_2 h2_2
  intro n hn
  interval_cases n
  · rfl
  · linear_combination (1) * h0_0 + ((2) + (-2) * q) * h0_2 + ((-2) + (2) * q) * h1_2
  · linear_combination (1) * h0_1 + ((2) + (-2) * q) * h0_2 + ((-2) + (2) * q) * h2_2
  · linear_combination (10 / 3) * h0_2 + (-2 / 3) * h1_2 + (-2 / 3) * h2_2
  · linear_combination (1) * h0_0 + ((4 / 3) + (-2) * q) * h0_2 + ((4 / 3) + (2) * q) * h1_2 + (-2 / 3) * h2_2
  · linear_combination (1) * h0_1 + ((4 / 3) + (-2) * q) * h0_2 + (-2 / 3) * h1_2 + ((4 / 3) + (2) * q) * h2_2

set_option maxHeartbeats 2000000 in
theorem prisma15_kernel (u : Nat → ℝ) (hz : ∀ p ∈ rulePrisma15 Real.sqrt, ∀ j < 3, ∑ n ∈ Finset.range 15, u n * slopeOf (setPrisma15 (p.1.getD 0 0) (p.1.getD 1 0) (p.1.getD 2 0)) n j = 0) :
    ∀ n < 15, u n = u 0 := by
  have hq : Real.sqrt (3 / 5) ^ 2 = 3 / 5 := Real.sq_sqrt (by norm_num)
  unfold rulePrisma15 at hz
  generalize Real.sqrt (3 / 5) = q at hq hz
  simp only [List.forall_mem_cons] at hz
  obtain ⟨h0, h1, h2, h3, h4, h5, h6, h7, h8, -⟩ := hz
  have h0_0 := h0 0 (by decide)
  have h0_1 := h0 1 (by decide)
  have h0_2 := h0 2 (by decide)
  have h1_0 := h1 0 (by decide)
  have h1_1 := h1 1 (by decide)
  have h1_2 := h1 2 (by decide)
  have h2_1 := h2 1 (by decide)
  have h2_2 := h2 2 (by decide)
  have h3_0 := h3 0 (by decide)
  have h3_1 := h3 1 (by decide)
  have h3_2 := h3 2 (by decide)
  have h4_0 := h4 0 (by decide)
  have h4_1 := h4 1 (by decide)
  have h5_1 := h5 1 (by decide)
  clear h0 h1 h2 h3 h4 h5 h6 h7 h8
  simp only [Finset.sum_range_succ, Finset.sum_range_zero, slopeOf, setPrisma15, List.getElem?_cons_zero, List.getElem?_cons_succ, Option.bind_some, Option.getD_some,
    List.getD_cons_zero, List.getD_cons_succ] at h0_0 h0_1 h0_2 h1_0 h1_1 h1_2 h2_1 h2_2 h3_0 h3_1 h3_2 h4_0 h4_1 h5_1
  intro n hn
  interval_cases n
  · rfl
  · linear_combination ((-5 / 6) + (25 / 18) * q) * h0_0 + ((0) + (5 / 9) * q) * h0_1 + ((-2) + (10 / 3) * q) * h0_2 + ((-5 / 6) +
      (35 / 18) * q) * h1_0 + ((0) + (-5 / 9) * q) * h1_1 + ((2) + (-10 / 3) * q) * h1_2 + ((7 / 6) + (-25 / 18) * q) * h3_0 + ((1 / 3) +
      (-5 / 9) * q) * h3_1 + ((3 / 2) + (-35 / 18) * q) * h4_0 + ((-1 / 3) + (5 / 9) * q) * h4_1 + (((20 / 9) * q ^ 0 + (5 / 3) * q ^ 1) * u 0 +
      ((-20 / 9) * q ^ 0 + (-5 / 3) * q ^ 1) * u 1 + ((-5 / 9) * q ^ 0 + (5 / 3) * q ^ 1) * u 3 + ((5 / 9) * q ^ 0 + (-5 / 3) * q ^ 1) * u 4 +
      ((-5 / 9) * q ^ 0) * u 7 + ((5 / 9) * q ^ 0) * u 8 + ((5 / 9) * q ^ 0) * u 10 + ((-5 / 9) * q ^ 0) * u 11 + ((-5 / 3) * q ^ 0 +
      (-10 / 3) * q ^ 1) * u 12 + ((5 / 3) * q ^ 0 + (10 / 3) * q ^ 1) * u 13) * hq
  · linear_combination ((-5 / 6) + (35 / 18) * q) * h0_1 + ((-2) + (10 / 3) * q) * h0_2 + ((0) + (-5 / 9) * q) * h1_1 + ((-5 / 6) +
      (35 / 18) * q) * h2_1 + ((2) + (-10 / 3) * q) * h2_2 + ((3 / 2) + (-35 / 18) * q) * h3_1 + ((-1 / 3) + (5 / 9) * q) * h4_1 + ((3 / 2) +
      (-35 / 18) * q) * h5_1 + (((20 / 9) * q ^ 0 + (5 / 3) * q ^ 1) * u 0 + ((-20 / 9) * q ^ 0 + (-5 / 3) * q ^ 1) * u 2 + ((-5 / 9) * q ^ 0 +
      (5 / 3) * q ^ 1) * u 3 + ((5 / 9) * q ^ 0 + (-5 / 3) * q ^ 1) * u 5 + ((5 / 9) * q ^ 0) * u 6 + ((-5 / 9) * q ^ 0) * u 7 +
      ((-5 / 9) * q ^ 0) * u 9 + ((5 / 9) * q ^ 0) * u 10 + ((-5 / 3) * q ^ 0 + (-10 / 3) * q ^ 1) * u 12 + ((5 / 3) * q ^ 0 +
      (10 / 3) * q ^ 1) * u 14) * hq
  · linear_combination ((0) + (25 / 27) * q) * h0_0 + ((0) + (10 / 9) * q) * h0_1 + (-4 / 3) * h0_2 + ((0) + (5 / 27) * q) * h1_0 + ((0) +
      (-5 / 27) * q) * h1_1 + (2 / 3) * h1_2 + ((0) + (5 / 27) * q) * h2_1 + (2 / 3) * h2_2 + ((0) + (-25 / 27) * q) * h3_0 + ((0) +
      (-10 / 9) * q) * h3_1 + (2) * h3_2 + ((0) + (-5 / 27) * q) * h4_0 + ((0) + (5 / 27) * q) * h4_1 + ((0) + (-5 / 27) * q) * h5_1 +
      (((5 / 3) * q ^ 0 + (10 / 9) * q ^ 1) * u 0 + ((-5 / 9) * q ^ 1) * u 1 + ((-5 / 9) * q ^ 1) * u 2 + ((-5 / 3) * q ^ 0 +
      (10 / 9) * q ^ 1) * u 3 + ((-5 / 9) * q ^ 1) * u 4 + ((-5 / 9) * q ^ 1) * u 5 + ((-5 / 9) * q ^ 0) * u 6 + ((-5 / 9) * q ^ 0) * u 7 +
      ((-5 / 9) * q ^ 0) * u 8 + ((5 / 9) * q ^ 0) * u 9 + ((5 / 9) * q ^ 0) * u 10 + ((5 / 9) * q ^ 0) * u 11 + ((-20 / 9) * q ^ 1) * u 12 +
      ((10 / 9) * q ^ 1) * u 13 + ((10 / 9) * q ^ 1) * u 14) * hq
  · linear_combination ((-5 / 6) + (-25 / 54) * q) * h0_0 + ((0) + (5 / 9) * q) * h0_1 + ((2 / 3) + (10 / 3) * q) * h0_2 + ((-5 / 6) +
      (-95 / 54) * q) * h1_0 + ((0) + (10 / 27) * q) * h1_1 + ((-4 / 3) + (-10 / 3) * q) * h1_2 + ((0) + (5 / 27) * q) * h2_1 + (2 / 3) * h2_2 +
      ((7 / 6) + (25 / 54) * q) * h3_0 + ((1 / 3) + (-5 / 9) * q) * h3_1 + (2) * h3_2 + ((3 / 2) + (95 / 54) * q) * h4_0 + ((-1 / 3) +
      (-10 / 27) * q) * h4_1 + ((0) + (-5 / 27) * q) * h5_1 + (((10 / 9) * q ^ 0 + (-5 / 9) * q ^ 1) * u 0 + ((5 / 9) * q ^ 0 +
      (10 / 9) * q ^ 1) * u 1 + ((-5 / 9) * q ^ 1) * u 2 + ((5 / 9) * q ^ 0 + (-5 / 9) * q ^ 1) * u 3 + ((-20 / 9) * q ^ 0 + (10 / 9) * q ^ 1) * u 4 +
      ((-5 / 9) * q ^ 1) * u 5 + ((-5 / 9) * q ^ 0) * u 6 + ((-10 / 9) * q ^ 0) * u 8 + ((5 / 9) * q ^ 0) * u 9 + ((10 / 9) * q ^ 0) * u 11 +
      ((-5 / 3) * q ^ 0 + (10 / 9) * q ^ 1) * u 12 + ((5 / 3) * q ^ 0 + (-20 / 9) * q ^ 1) * u 13 + ((10 / 9) * q ^ 1) * u 14) * hq
  · linear_combination ((0) + (25 / 27) * q) * h0_0 + ((-5 / 6) + (-5 / 6) * q) * h0_1 + ((2 / 3) + (10 / 3) * q) * h0_2 + ((0) + (5 / 27) * q) * h1_0 +
      ((0) + (10 / 27) * q) * h1_1 + (2 / 3) * h1_2 + ((-5 / 6) + (-95 / 54) * q) * h2_1 + ((-4 / 3) + (-10 / 3) * q) * h2_2 + ((0) +
      (-25 / 27) * q) * h3_0 + ((3 / 2) + (5 / 6) * q) * h3_1 + (2) * h3_2 + ((0) + (-5 / 27) * q) * h4_0 + ((-1 / 3) + (-10 / 27) * q) * h4_1 +
      ((3 / 2) + (95 / 54) * q) * h5_1 + (((10 / 9) * q ^ 0 + (-5 / 9) * q ^ 1) * u 0 + ((-5 / 9) * q ^ 1) * u 1 + ((5 / 9) * q ^ 0 +
      (10 / 9) * q ^ 1) * u 2 + ((5 / 9) * q ^ 0 + (-5 / 9) * q ^ 1) * u 3 + ((-5 / 9) * q ^ 1) * u 4 + ((-20 / 9) * q ^ 0 + (10 / 9) * q ^ 1) * u 5 +
      ((-10 / 9) * q ^ 0) * u 6 + ((-5 / 9) * q ^ 0) * u 8 + ((10 / 9) * q ^ 0) * u 9 + ((5 / 9) * q ^ 0) * u 11 + ((-5 / 3) * q ^ 0 +
      (10 / 9) * q ^ 1) * u 12 + ((10 / 9) * q ^ 1) * u 13 + ((5 / 3) * q ^ 0 + (-20 / 9) * q ^ 1) * u 14) * hq
  · linear_combination ((-5 / 12) + (10 / 9) * q) * h0_0 + ((0) + (5 / 18) * q) * h0_1 + ((-1) + (5 / 3) * q) * h0_2 + ((-5 / 12) +
      (5 / 9) * q) * h1_0 + ((0) + (-5 / 18) * q) * h1_1 + ((1) + (-5 / 3) * q) * h1_2 + ((5 / 6) + (-10 / 9) * q) * h3_0 + ((1 / 6) +
      (-5 / 18) * q) * h3_1 + ((1 / 2) + (-5 / 9) * q) * h4_0 + ((-1 / 6) + (5 / 18) * q) * h4_1 + (((55 / 36) * q ^ 0 + (5 / 6) * q ^ 1) * u 0 +
      ((-25 / 36) * q ^ 0 + (-5 / 6) * q ^ 1) * u 1 + ((-25 / 36) * q ^ 0 + (5 / 6) * q ^ 1) * u 3 + ((-5 / 36) * q ^ 0 + (-5 / 6) * q ^ 1) * u 4 +
      ((-5 / 6) * q ^ 0) * u 6 + ((-5 / 18) * q ^ 0) * u 7 + ((5 / 18) * q ^ 0) * u 8 + ((5 / 6) * q ^ 0) * u 9 + ((5 / 18) * q ^ 0) * u 10 +
      ((-5 / 18) * q ^ 0) * u 11 + ((-5 / 6) * q ^ 0 + (-5 / 3) * q ^ 1) * u 12 + ((5 / 6) * q ^ 0 + (5 / 3) * q ^ 1) * u 13) * hq
  · linear_combination ((-5 / 12) + (10 / 9) * q) * h0_0 + ((-5 / 12) + (5 / 6) * q) * h0_1 + ((-2) + (10 / 3) * q) * h0_2 + ((-5 / 12) +
      (5 / 9) * q) * h1_0 + ((0) + (5 / 18) * q) * h1_1 + ((1) + (-5 / 3) * q) * h1_2 + ((-5 / 12) + (5 / 9) * q) * h2_1 + ((1) +
      (-5 / 3) * q) * h2_2 + ((5 / 6) + (-10 / 9) * q) * h3_0 + ((2 / 3) + (-5 / 6) * q) * h3_1 + ((1 / 2) + (-5 / 9) * q) * h4_0 + ((1 / 6) +
      (-5 / 18) * q) * h4_1 + ((1 / 2) + (-5 / 9) * q) * h5_1 + (((20 / 9) * q ^ 0 + (5 / 3) * q ^ 1) * u 0 + ((-25 / 36) * q ^ 0 +
      (-5 / 6) * q ^ 1) * u 1 + ((-25 / 36) * q ^ 0 + (-5 / 6) * q ^ 1) * u 2 + ((-5 / 9) * q ^ 0 + (5 / 3) * q ^ 1) * u 3 + ((-5 / 36) * q ^ 0 +
      (-5 / 6) * q ^ 1) * u 4 + ((-5 / 36) * q ^ 0 + (-5 / 6) * q ^ 1) * u 5 + ((5 / 18) * q ^ 0) * u 6 + ((-25 / 18) * q ^ 0) * u 7 +
      ((5 / 18) * q ^ 0) * u 8 + ((-5 / 18) * q ^ 0) * u 9 + ((25 / 18) * q ^ 0) * u 10 + ((-5 / 18) * q ^ 0) * u 11 + ((-5 / 3) * q ^ 0 +
      (-10 / 3) * q ^ 1) * u 12 + ((5 / 6) * q ^ 0 + (5 / 3) * q ^ 1) * u 13 + ((5 / 6) * q ^ 0 + (5 / 3) * q ^ 1) * u 14) * hq
  · linear_combination ((-5 / 12) + (25 / 18) * q) * h0_1 + ((-1) + (5 / 3) * q) * h0_2 + ((0) + (-5 / 18) * q) * h1_1 + ((-5 / 12) +
      (5 / 9) * q) * h2_1 + ((1) + (-5 / 3) * q) * h2_2 + ((1) + (-25 / 18) * q) * h3_1 + ((-1 / 6) + (5 / 18) * q) * h4_1 + ((1 / 2) +
      (-5 / 9) * q) * h5_1 + (((55 / 36) * q ^ 0 + (5 / 6) * q ^ 1) * u 0 + ((-25 / 36) * q ^ 0 + (-5 / 6) * q ^ 1) * u 2 + ((-25 / 36) * q ^ 0 +
      (5 / 6) * q ^ 1) * u 3 + ((-5 / 36) * q ^ 0 + (-5 / 6) * q ^ 1) * u 5 + ((5 / 18) * q ^ 0) * u 6 + ((-5 / 18) * q ^ 0) * u 7 +
      ((-5 / 6) * q ^ 0) * u 8 + ((-5 / 18) * q ^ 0) * u 9 + ((5 / 18) * q ^ 0) * u 10 + ((5 / 6) * q ^ 0) * u 11 + ((-5 / 6) * q ^ 0 +
      (-5 / 3) * q ^ 1) * u 12 + ((5 / 6) * q ^ 0 + (5 / 3) * q ^ 1) * u 14) * hq
  · linear_combination ((-5 / 12) + (-5 / 27) * q) * h0_0 + ((0) + (5 / 6) * q) * h0_1 + ((-1 / 3) + (5 / 3) * q) * h0_2 + ((-5 / 12) +
      (-10 / 27) * q) * h1_0 + ((0) + (5 / 54) * q) * h1_1 + ((-1 / 3) + (-5 / 3) * q) * h1_2 + ((0) + (5 / 27) * q) * h2_1 + (2 / 3) * h2_2 +
      ((5 / 6) + (5 / 27) * q) * h3_0 + ((1 / 6) + (-5 / 6) * q) * h3_1 + (2) * h3_2 + ((1 / 2) + (10 / 27) * q) * h4_0 + ((-1 / 6) +
      (-5 / 54) * q) * h4_1 + ((0) + (-5 / 27) * q) * h5_1 + (((35 / 36) * q ^ 0 + (5 / 18) * q ^ 1) * u 0 + ((-5 / 36) * q ^ 0 +
      (5 / 18) * q ^ 1) * u 1 + ((-5 / 9) * q ^ 1) * u 2 + ((-5 / 36) * q ^ 0 + (5 / 18) * q ^ 1) * u 3 + ((-25 / 36) * q ^ 0 +
      (5 / 18) * q ^ 1) * u 4 + ((-5 / 9) * q ^ 1) * u 5 + ((5 / 18) * q ^ 0) * u 6 + ((-5 / 18) * q ^ 0) * u 7 + ((-5 / 6) * q ^ 0) * u 8 +
      ((-5 / 18) * q ^ 0) * u 9 + ((5 / 18) * q ^ 0) * u 10 + ((5 / 6) * q ^ 0) * u 11 + ((-5 / 6) * q ^ 0 + (-5 / 9) * q ^ 1) * u 12 +
      ((5 / 6) * q ^ 0 + (-5 / 9) * q ^ 1) * u 13 + ((10 / 9) * q ^ 1) * u 14) * hq
  · linear_combination ((-5 / 12) + (-5 / 27) * q) * h0_0 + ((-5 / 12) + (5 / 18) * q) * h0_1 + ((2 / 3) + (10 / 3) * q) * h0_2 + ((-5 / 12) +
      (-10 / 27) * q) * h1_0 + ((0) + (-25 / 54) * q) * h1_1 + ((-1 / 3) + (-5 / 3) * q) * h1_2 + ((-5 / 12) + (-10 / 27) * q) * h2_1 + ((-1 / 3) +
      (-5 / 3) * q) * h2_2 + ((5 / 6) + (5 / 27) * q) * h3_0 + ((2 / 3) + (-5 / 18) * q) * h3_1 + (2) * h3_2 + ((1 / 2) + (10 / 27) * q) * h4_0 +
      ((1 / 6) + (25 / 54) * q) * h4_1 + ((1 / 2) + (10 / 27) * q) * h5_1 + (((10 / 9) * q ^ 0 + (-5 / 9) * q ^ 1) * u 0 + ((-5 / 36) * q ^ 0 +
      (5 / 18) * q ^ 1) * u 1 + ((-5 / 36) * q ^ 0 + (5 / 18) * q ^ 1) * u 2 + ((5 / 9) * q ^ 0 + (-5 / 9) * q ^ 1) * u 3 + ((-25 / 36) * q ^ 0 +
      (5 / 18) * q ^ 1) * u 4 + ((-25 / 36) * q ^ 0 + (5 / 18) * q ^ 1) * u 5 + ((-5 / 6) * q ^ 0) * u 6 + ((5 / 6) * q ^ 0) * u 7 +
      ((-5 / 6) * q ^ 0) * u 8 + ((5 / 6) * q ^ 0) * u 9 + ((-5 / 6) * q ^ 0) * u 10 + ((5 / 6) * q ^ 0) * u 11 + ((-5 / 3) * q ^ 0 +
      (10 / 9) * q ^ 1) * u 12 + ((5 / 6) * q ^ 0 + (-5 / 9) * q ^ 1) * u 13 + ((5 / 6) * q ^ 0 + (-5 / 9) * q ^ 1) * u 14) * hq
  · linear_combination ((0) + (25 / 27) * q) * h0_0 + ((-5 / 12) + (-5 / 18) * q) * h0_1 + ((-1 / 3) + (5 / 3) * q) * h0_2 + ((0) +
      (5 / 27) * q) * h1_0 + ((0) + (5 / 54) * q) * h1_1 + (2 / 3) * h1_2 + ((-5 / 12) + (-10 / 27) * q) * h2_1 + ((-1 / 3) + (-5 / 3) * q) * h2_2 +
      ((0) + (-25 / 27) * q) * h3_0 + ((1) + (5 / 18) * q) * h3_1 + (2) * h3_2 + ((0) + (-5 / 27) * q) * h4_0 + ((-1 / 6) + (-5 / 54) * q) * h4_1 +
      ((1 / 2) + (10 / 27) * q) * h5_1 + (((35 / 36) * q ^ 0 + (5 / 18) * q ^ 1) * u 0 + ((-5 / 9) * q ^ 1) * u 1 + ((-5 / 36) * q ^ 0 +
      (5 / 18) * q ^ 1) * u 2 + ((-5 / 36) * q ^ 0 + (5 / 18) * q ^ 1) * u 3 + ((-5 / 9) * q ^ 1) * u 4 + ((-25 / 36) * q ^ 0 +
      (5 / 18) * q ^ 1) * u 5 + ((-5 / 6) * q ^ 0) * u 6 + ((-5 / 18) * q ^ 0) * u 7 + ((5 / 18) * q ^ 0) * u 8 + ((5 / 6) * q ^ 0) * u 9 +
      ((5 / 18) * q ^ 0) * u 10 + ((-5 / 18) * q ^ 0) * u 11 + ((-5 / 6) * q ^ 0 + (-5 / 9) * q ^ 1) * u 12 + ((10 / 9) * q ^ 1) * u 13 +
      ((5 / 6) * q ^ 0 + (-5 / 9) * q ^ 1) * u 14) * hq
  · linear_combination ((-5 / 36) + (25 / 54) * q) * h0_0 + ((-5 / 36) + (5 / 9) * q) * h0_1 + ((-2 / 3) + (35 / 18) * q) * h0_2 + ((-5 / 36) +
      (5 / 54) * q) * h1_0 + ((0) + (-5 / 54) * q) * h1_1 + ((1 / 3) + (-5 / 9) * q) * h1_2 + ((-5 / 36) + (5 / 54) * q) * h2_1 + ((1 / 3) +
      (-5 / 9) * q) * h2_2 + ((5 / 36) + (-25 / 54) * q) * h3_0 + ((5 / 36) + (-5 / 9) * q) * h3_1 + ((1) + (-5 / 6) * q) * h3_2 + ((5 / 36) +
      (-5 / 54) * q) * h4_0 + ((0) + (5 / 54) * q) * h4_1 + ((5 / 36) + (-5 / 54) * q) * h5_1 + (((5 / 3) * q ^ 0 + (5 / 9) * q ^ 1) * u 0 +
      ((-5 / 18) * q ^ 1) * u 1 + ((-5 / 18) * q ^ 1) * u 2 + ((5 / 9) * q ^ 1) * u 3 + ((-5 / 18) * q ^ 1) * u 4 + ((-5 / 18) * q ^ 1) * u 5 +
      ((-5 / 18) * q ^ 0) * u 6 + ((-5 / 18) * q ^ 0) * u 7 + ((-5 / 18) * q ^ 0) * u 8 + ((5 / 18) * q ^ 0) * u 9 + ((5 / 18) * q ^ 0) * u 10 +
      ((5 / 18) * q ^ 0) * u 11 + ((-5 / 3) * q ^ 0 + (-10 / 9) * q ^ 1) * u 12 + ((5 / 9) * q ^ 1) * u 13 + ((5 / 9) * q ^ 1) * u 14) * hq
  · linear_combination ((-5 / 36) + (25 / 54) * q) * h0_0 + ((-5 / 36) + (5 / 9) * q) * h0_1 + ((-2 / 3) + (35 / 18) * q) * h0_2 + ((-5 / 36) +
      (5 / 54) * q) * h1_0 + ((0) + (-5 / 54) * q) * h1_1 + ((1 / 3) + (-5 / 9) * q) * h1_2 + ((-5 / 36) + (5 / 54) * q) * h2_1 + ((1 / 3) +
      (-5 / 9) * q) * h2_2 + ((17 / 36) + (-25 / 54) * q) * h3_0 + ((17 / 36) + (-5 / 9) * q) * h3_1 + ((1) + (-5 / 6) * q) * h3_2 + ((29 / 36) +
      (-5 / 54) * q) * h4_0 + ((-1 / 3) + (5 / 54) * q) * h4_1 + ((5 / 36) + (-5 / 54) * q) * h5_1 + (((5 / 3) * q ^ 0 + (5 / 9) * q ^ 1) * u 0 +
      ((-5 / 18) * q ^ 1) * u 1 + ((-5 / 18) * q ^ 1) * u 2 + ((5 / 9) * q ^ 1) * u 3 + ((-5 / 18) * q ^ 1) * u 4 + ((-5 / 18) * q ^ 1) * u 5 +
      ((-5 / 18) * q ^ 0) * u 6 + ((-5 / 18) * q ^ 0) * u 7 + ((-5 / 18) * q ^ 0) * u 8 + ((5 / 18) * q ^ 0) * u 9 + ((5 / 18) * q ^ 0) * u 10 +
      ((5 / 18) * q ^ 0) * u 11 + ((-5 / 3) * q ^ 0 + (-10 / 9) * q ^ 1) * u 12 + ((5 / 9) * q ^ 1) * u 13 + ((5 / 9) * q ^ 1) * u 14) * hq
  · linear_combination ((-5 / 36) + (25 / 54) * q) * h0_0 + ((-5 / 36) + (5 / 9) * q) * h0_1 + ((-2 / 3) + (35 / 18) * q) * h0_2 + ((-5 / 36) +
      (5 / 54) * q) * h1_0 + ((0) + (-5 / 54) * q) * h1_1 + ((1 / 3) + (-5 / 9) * q) * h1_2 + ((-5 / 36) + (5 / 54) * q) * h2_1 + ((1 / 3) +
      (-5 / 9) * q) * h2_2 + ((5 / 36) + (-25 / 54) * q) * h3_0 + ((29 / 36) + (-5 / 9) * q) * h3_1 + ((1) + (-5 / 6) * q) * h3_2 + ((5 / 36) +
      (-5 / 54) * q) * h4_0 + ((-1 / 3) + (5 / 54) * q) * h4_1 + ((29 / 36) + (-5 / 54) * q) * h5_1 + (((5 / 3) * q ^ 0 + (5 / 9) * q ^ 1) * u 0 +
      ((-5 / 18) * q ^ 1) * u 1 + ((-5 / 18) * q ^ 1) * u 2 + ((5 / 9) * q ^ 1) * u 3 + ((-5 / 18) * q ^ 1) * u 4 + ((-5 / 18) * q ^ 1) * u 5 +
      ((-5 / 18) * q ^ 0) * u 6 + ((-5 / 18) * q ^ 0) * u 7 + ((-5 / 18) * q ^ 0) * u 8 + ((5 / 18) * q ^ 0) * u 9 + ((5 / 18) * q ^ 0) * u 10 +
      ((5 / 18) * q ^ 0) * u 11 + ((-5 / 3) * q ^ 0 + (-10 / 9) * q ^ 1) * u 12 + ((5 / 9) * q ^ 1) * u 13 + ((5 / 9) * q ^ 1) * u 14) * hq

end Verif.Fem
