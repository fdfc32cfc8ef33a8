import Verif.Prop.ConductionForm
import Mathlib.Tactic.LinearCombination
/-!
Nodal values whose interpolation vanishes in all points of an explicit rule vanish: every nodal value is a combination of the values in the points.
-/
namespace Verif.Fem

theorem triangle3_values (u : Nat → ℝ) (hz : ∀ p ∈ ruleTriangle3 (K := ℝ), ∑ n ∈ Finset.range 3, valueOf (setTriangle3 (p.1.getD 0 0) (p.1.getD 1 0)) n * u n = 0) : ∀ n < 3, u n = 0 := by
  unfold ruleTriangle3 at hz
  simp only [List.forall_mem_cons] at hz
  obtain ⟨h0, h1, h2, h3, h4, h5, -⟩ := hz
  clear h3 h4 h5
  simp only [Finset.sum_range_succ, Finset.sum_range_zero, valueOf, setTriangle3, List.getElem?_cons_zero, List.getElem?_cons_succ, Option.map_some, Option.getD_some,
    List.getD_cons_zero, List.getD_cons_succ] at h0 h1 h2
  intro n hn
  interval_cases n
  · linear_combination (-110810301816807 / 67569094549579) * h0 + (89189698183193 / 67569094549579) * h1 + (89189698183193 / 67569094549579) * h2
  · linear_combination (89189698183193 / 67569094549579) * h0 + (89189698183193 / 67569094549579) * h1 + (-110810301816807 / 67569094549579) * h2
  · linear_combination (89189698183193 / 67569094549579) * h0 + (-110810301816807 / 67569094549579) * h1 + (89189698183193 / 67569094549579) * h2

theorem triangle6_values (u : Nat → ℝ) (hz : ∀ p ∈ ruleTriangle6 (K := ℝ), ∑ n ∈ Finset.range 6, valueOf (setTriangle6 (p.1.getD 0 0) (p.1.getD 1 0)) n * u n = 0) : ∀ n < 6, u n = 0 := by
  unfold ruleTriangle6 at hz
  simp only [List.forall_mem_cons] at hz
  obtain ⟨h0, h1, h2, h3, h4, h5, -⟩ := hz
  simp only [Finset.sum_range_succ, Finset.sum_range_zero, valueOf, setTriangle6, List.getElem?_cons_zero, List.getElem?_cons_succ, Option.map_some, Option.getD_some,
    List.getD_cons_zero, List.getD_cons_succ] at h0 h1 h2 h3 h4 h5
  intro n hn
  interval_cases n
  · linear_combination (612174879133479404330042680336240379886654782041483122725 / 326726896286827328071641226791902952504658434743859959328) * h0 +
      (511000965168546116882763182263733989883275 / 3687950972669585422716391908875957909610048) * h1 +
      (511000965168546116882763182263733989883275 / 3687950972669585422716391908875957909610048) * h2 +
      (15382815100702308350666074315983038378743228245417181937 / 121756582602169387685402118485946084239368323518995973796) * h3 +
      (-109699372818052450974217512474245331626416 / 171791912580407213129753746828637638266417) * h4 +
      (-109699372818052450974217512474245331626416 / 171791912580407213129753746828637638266417) * h5
  · linear_combination (1222320886538882450925279217494239079883619115120044313575 / 8821626199744337857934313123381379717625777738084218901856) * h0 +
      (13222977389283141198068040984839307822983195191534184198575 / 7057300959795490201282702914466386442616930120640087015744) * h1 +
      (977856709231125105656528219123830334187689191534184198575 / 7057300959795490201282702914466386442616930120640087015744) * h2 +
      (-299888356440068685229346984464845610312839462481962298243 / 469632532894081923929408171302934896351849247858984470356) * h3 +
      (41533600771896478288548868334137582041495137754190145552 / 328742773025858274426913654111005328116527348144535767901) * h4 +
      (-209921849508044940656844399410938779039631662245809854448 / 328742773025858274426913654111005328116527348144535767901) * h5
  · linear_combination (1222320886538882450925279217494239079883619115120044313575 / 8821626199744337857934313123381379717625777738084218901856) * h0 +
      (977856709231125105656528219123830334187689191534184198575 / 7057300959795490201282702914466386442616930120640087015744) * h1 +
      (13222977389283141198068040984839307822983195191534184198575 / 7057300959795490201282702914466386442616930120640087015744) * h2 +
      (-299888356440068685229346984464845610312839462481962298243 / 469632532894081923929408171302934896351849247858984470356) * h3 +
      (-209921849508044940656844399410938779039631662245809854448 / 328742773025858274426913654111005328116527348144535767901) * h4 +
      (41533600771896478288548868334137582041495137754190145552 / 328742773025858274426913654111005328116527348144535767901) * h5
  · linear_combination (220249762210021449369757851178788222803883038373348104525 / 2940542066581445952644771041127126572541925912694739633952) * h0 +
      (176199809768017782068257035681201447900362897178061399525 / 2352433653265163400427567638155462147538976706880029005248) * h1 +
      (423562926493853330685324572095288533101111897178061399525 / 2352433653265163400427567638155462147538976706880029005248) * h2 +
      (-378257771310398286326175880887062872660634845791245362567 / 1095809243419524489168619066373514758154314911670963764164) * h3 +
      (-37825777131039815847995857781998923713845120748603284816 / 109580924341952758142304551370335109372175782714845255967) * h4 +
      (149086637495753770729670563997155016105967079251396715184 / 109580924341952758142304551370335109372175782714845255967) * h5
  · linear_combination (1588360974351950161380164748744239079883619115120044313575 / 8821626199744337857934313123381379717625777738084218901856) * h0 +
      (7458250306331841813895693061120817726848425 / 99574676262078806413342581539650863559471296) * h1 +
      (7458250306331841813895693061120817726848425 / 99574676262078806413342581539650863559471296) * h2 +
      (4472599124872599098381957815496080727810123762626263912299 / 3287427730258573467505857199120544274462944735012891292492) * h3 +
      (-1601103396457951607705631518404623953913232 / 4638381639670994754503351164373216233193259) * h4 +
      (-1601103396457951607705631518404623953913232 / 4638381639670994754503351164373216233193259) * h5
  · linear_combination (220249762210021449369757851178788222803883038373348104525 / 2940542066581445952644771041127126572541925912694739633952) * h0 +
      (423562926493853330685324572095288533101111897178061399525 / 2352433653265163400427567638155462147538976706880029005248) * h1 +
      (176199809768017782068257035681201447900362897178061399525 / 2352433653265163400427567638155462147538976706880029005248) * h2 +
      (-378257771310398286326175880887062872660634845791245362567 / 1095809243419524489168619066373514758154314911670963764164) * h3 +
      (149086637495753770729670563997155016105967079251396715184 / 109580924341952758142304551370335109372175782714845255967) * h4 +
      (-37825777131039815847995857781998923713845120748603284816 / 109580924341952758142304551370335109372175782714845255967) * h5

theorem tetra4_values (u : Nat → ℝ) (hz : ∀ p ∈ ruleTetra4 (K := ℝ), ∑ n ∈ Finset.range 4, valueOf (setTetra4 (p.1.getD 0 0) (p.1.getD 1 0) (p.1.getD 2 0)) n * u n = 0) : ∀ n < 4, u n = 0 := by
  unfold ruleTetra4 at hz
  simp only [List.forall_mem_cons] at hz
  obtain ⟨h0, h1, h2, h3, -⟩ := hz
  simp only [Finset.sum_range_succ, Finset.sum_range_zero, valueOf, setTetra4, List.getElem?_cons_zero, List.getElem?_cons_succ, Option.map_some, Option.getD_some,
    List.getD_cons_zero, List.getD_cons_succ] at h0 h1 h2 h3
  intro n hn
  interval_cases n
  · linear_combination (574535599249993 / 298142396999972) * h0 + (-276393202250021 / 894427190999916) * h1 +
      (-276393202250021 / 894427190999916) * h2 + (-276393202250021 / 894427190999916) * h3
  · linear_combination (-276393202250021 / 894427190999916) * h0 + (-276393202250021 / 894427190999916) * h1 +
      (-276393202250021 / 894427190999916) * h2 + (574535599249993 / 298142396999972) * h3
  · linear_combination (-276393202250021 / 894427190999916) * h0 + (-276393202250021 / 894427190999916) * h1 +
      (574535599249993 / 298142396999972) * h2 + (-276393202250021 / 894427190999916) * h3
  · linear_combination (-276393202250021 / 894427190999916) * h0 + (574535599249993 / 298142396999972) * h1 +
      (-276393202250021 / 894427190999916) * h2 + (-276393202250021 / 894427190999916) * h3

theorem tetra10_values (u : Nat → ℝ) (hz : ∀ p ∈ ruleTetra10 (K := ℝ), ∑ n ∈ Finset.range 10, valueOf (setTetra10 (p.1.getD 0 0) (p.1.getD 1 0) (p.1.getD 2 0)) n * u n = 0) : ∀ n < 10, u n = 0 := by
  unfold ruleTetra10 at hz
  simp only [List.forall_mem_cons] at hz
  obtain ⟨h0, h1, h2, h3, h4, h5, h6, h7, h8, h9, h10, h11, h12, h13, h14, -⟩ := hz
  clear h8 h11 h12 h13 h14
  simp only [Finset.sum_range_succ, Finset.sum_range_zero, valueOf, setTetra10, List.getElem?_cons_zero, List.getElem?_cons_succ, Option.map_some, Option.getD_some,
    List.getD_cons_zero, List.getD_cons_succ] at h0 h1 h2 h3 h4 h5 h6 h7 h9 h10
  intro n hn
  interval_cases n
  · linear_combination 
      (-475410110868204901937016356400629178872526655779320080770174938099452443 / 207991923504839627309809623634904496038340506648816782174825061900547557) * h0 +
      (55034953927900710000000000000000 / 48919959047022849781078982079511) * h1 +
      (1786104396516749062500000000000 / 5823804648455098834892305151234653281953234309) * h2 +
      (899263953070272900355354516258750000000000000 / 416188275801118094355294717265091045736014623) * h5 +
      (-73561538536673437500000000000 / 416188275801118094355294717265091045736014623) * h6 +
      (133689839572192500000000000000 / 479912244618126927010903345119476325425763521) * h9
  · linear_combination 
      (-57524623415052814467560375777324967252702927657135981528111924319093976873 / 2287911158553235900407905859983949456421745573136984603923075680906023127) * h0 +
      (22890355169061493317065683061528764153242932740000000000000000 / 2906711767499871657580937176170025726903984214277944788462317) * h1 +
      (2725042282031131318873644753535916439975226395739266287965429062500000000000 / 346037115178556011297170259073971749348704017412815955579598962955010073223) * h2 +
      (22890355169061493317065683061528764153242932740000000000000000 / 2906711767499871657580937176170025726903984214277944788462317) * h3 +
      (26160405907498849169294394554093146229864399110000000000000000 / 2906711767499871657580937176170025726903984214277944788462317) * h4 +
      (-899263953070272900355354516258750000000000000 / 416188275801118094355294717265091045736014623) * h5 +
      (-908347427343710608317641900724799197960090739735737535236122187500000000000 / 420392197778907081937009653577248824807908263800741823984088940313593293077) * h6 +
      (-899263953070272900355354516258750000000000000 / 416188275801118094355294717265091045736014623) * h7 +
      (133689839572192500000000000000 / 479912244618126927010903345119476325425763521) * h10
  · linear_combination 
      (-1926662028255356895199179391681291318992907214596938459758603696508307269 / 842914637361718489623965316836191904997485211155731169866396303491692731) * h0 +
      (18344984642633570000000000000000 / 54355510052247605432314530419140024324557546721) * h1 +
      (10950243619547139690958982448507812500000000000 / 45296258376872986408425424600081542832287815887491891814151093) * h2 +
      (61149948808778578896656428422380000000000000000 / 54355510052247605432314530419140024324557546721) * h3 +
      (18344984642633570000000000000000 / 54355510052247605432314530419140024324557546721) * h4 +
      (-521440172359388021136752846360312500000000000 / 7861334098465563218355490368450874859456921378161358054194601) * h6 +
      (899263953070272900355354516258750000000000000 / 416188275801118094355294717265091045736014623) * h7 +
      (-133689839572192500000000000000 / 479912244618126927010903345119476325425763521) * h9 +
      (-133689839572192500000000000000 / 479912244618126927010903345119476325425763521) * h10
  · linear_combination (-3030303030303029696969696969697 / 1325757575757575303030303030303) * h0 + (937500000000000 / 833333333333333) * h2 +
      (3437500000000000 / 1590909090909091) * h6
  · linear_combination 
      (-1555779587816201632401757211141117390722332766807155893786738993972183247887 / 272261427867835072148540797338089985314187723203301167866846006027816752113) * h0 +
      (111181725106870147617780925002866742953847392435000000000000000 / 49414100047497818178875931994890437357367731642725061403859389) * h1 +
      (4102449607598555838057043016225658183638675083139267376208489375000000000000 / 2167285089802535018124382148936980956447146214322373616524856662718220984923) * h2 +
      (226111608629004608601305397430869495302564928290000000000000000 / 49414100047497818178875931994890437357367731642725061403859389) * h3 +
      (111181725106870147617780925002866742953847392435000000000000000 / 49414100047497818178875931994890437357367731642725061403859389) * h4 +
      (24145968874689364383880628336395185216404538037988189140105000000000000000 / 246436805594531737687212555545283793852911740848710724404465930528658137321) * h6 +
      (-4515102566940997778020513388199375000000000000 / 7075200688619007604040010193506547777512248591) * h7 +
      (-15151515151515155113636363636363750000000000000 / 8158508158508157759185356867031097532237979857) * h9 +
      (-15151515151515155113636363636363750000000000000 / 8158508158508157759185356867031097532237979857) * h10
  · linear_combination 
      (-6162322910497169017325207848518774500091305939876986428736224566696167101 / 1455943464533877391168667365444331472268383546541717475223775433303832899) * h0 +
      (11492988352213447247651282464145000000000000000 / 4941410004749782312028593674467274938596140611) * h1 +
      (9577490293511207955207460755695374608547077357500000000000000 / 4117841670624816946220493145461958439298892353408353801286463) * h2 +
      (-4515102566940997778020513388199375000000000000 / 7075200688619007604040010193506547777512248591) * h5 +
      (-4515102566940997778020513388199375000000000000 / 7075200688619007604040010193506547777512248591) * h6 +
      (15151515151515155113636363636363750000000000000 / 8158508158508157759185356867031097532237979857) * h9
  · linear_combination 
      (685620507918110511398326485040099306655601988635029445884906006027816752113 / 272261427867835072148540797338089985314187723203301167866846006027816752113) * h0 +
      (-38309961174044831820829843022781498434188309430000000000000000 / 16471366682499272726291977331630145785789243880908353801286463) * h1 +
      (-15563421726955712927212123728004983738889000705937500000000000 / 13726138902082721781454420276600879390831926024041699571324092197215399571179) * h2 +
      (-38309961174044831820829843022781498434188309430000000000000000 / 16471366682499272726291977331630145785789243880908353801286463) * h3 +
      (-11492988352213447247651282464145000000000000000 / 16471366682499272726291977331630145785789243880908353801286463) * h4 +
      (4515102566940997778020513388199375000000000000 / 7075200688619007604040010193506547777512248591) * h5 +
      (752517094490166296336752231366562500000000000 / 1497396971136297520571997939239104162344476716446213981935133) * h6 +
      (4515102566940997778020513388199375000000000000 / 7075200688619007604040010193506547777512248591) * h7 +
      (15151515151515155113636363636363750000000000000 / 8158508158508157759185356867031097532237979857) * h10
  · linear_combination 
      (-2002484440400373063303052632229547635871464467039578620816224566696167101 / 1455943464533877391168667365444331472268383546541717475223775433303832899) * h0 +
      (311397777416878426885067800445000000000000000 / 872013530249961584475634177847166165634613049) * h1 +
      (259498147847398740970519403183904480844633407500000000000000 / 726677941874967696391851731552110312817451591777944788462317) * h2 +
      (-40778280376019799822322741870625000000000000 / 416188275801118094355294717265091045736014623) * h5 +
      (-40778280376019799822322741870625000000000000 / 416188275801118094355294717265091045736014623) * h6 +
      (46908715639365792991837883478750000000000000 / 25258539190427733000573860269446122390829659) * h9
  · linear_combination 
      (-5427605058234727814295924740079538803867079689907477067718470233657838111 / 16015378109872651302855341019887646194952219011958892227461529766342161889) * h0 +
      (-1037992591389594963882077612735617923378533630000000000000000 / 2906711767499871657580937176170025726903984214277944788462317) * h1 +
      (-421684490252022954077094030173844781372529287187500000000000 / 2422259806249892079080191813517802245440928121889711689057192740685070512561) * h2 +
      (-1037992591389594963882077612735617923378533630000000000000000 / 2906711767499871657580937176170025726903984214277944788462317) * h3 +
      (-311397777416878426885067800445000000000000000 / 2906711767499871657580937176170025726903984214277944788462317) * h4 +
      (40778280376019799822322741870625000000000000 / 416188275801118094355294717265091045736014623) * h5 +
      (20389140188009899911161370935312500000000000 / 264246524318170150689176106924547793354907655843449526223847) * h6 +
      (40778280376019799822322741870625000000000000 / 416188275801118094355294717265091045736014623) * h7 +
      (46908715639365792991837883478750000000000000 / 25258539190427733000573860269446122390829659) * h10
  · linear_combination 
      (-45758223171064746064735191351288629368533851428602457087033470233657838111 / 16015378109872651302855341019887646194952219011958892227461529766342161889) * h0 +
      (366899692852671427517476963950355000000000000000 / 163066530156742816296943591257420072973672640163) * h1 +
      (-10307435641976805748006251304162304355117277161875000000000000 / 135888775130618959225276273800244628496863447662475675442453279) * h2 +
      (141710359076542564448328214211190000000000000000 / 54355510052247605432314530419140024324557546721) * h3 +
      (366899692852671427517476963950355000000000000000 / 163066530156742816296943591257420072973672640163) * h4 +
      (15050341889803303841502120667683604697007080485000000000000000 / 23584002295396689655066471105352624578370764134484074162583803) * h6 +
      (-40778280376019799822322741870625000000000000 / 416188275801118094355294717265091045736014623) * h7 +
      (-46908715639365792991837883478750000000000000 / 25258539190427733000573860269446122390829659) * h9 +
      (-46908715639365792991837883478750000000000000 / 25258539190427733000573860269446122390829659) * h10

set_option maxHeartbeats 2000000 in
theorem pyramid13_values (u : Nat → ℝ) (hz : ∀ p ∈ rulePyramid13 (K := ℝ), ∑ n ∈ Finset.range 13, valueOf (setPyramid13 (p.1.getD 0 0) (p.1.getD 1 0) (p.1.getD 2 0)) n * u n = 0) : ∀ n < 13, u n = 0 := by
  unfold rulePyramid13 at hz
  simp only [List.forall_mem_cons] at hz
  obtain ⟨h0, h1, h2, h3, h4, h5, h6, h7, h8, h9, h10, h11, h12, h13, -⟩ := hz
  clear h13
  simp only [Finset.sum_range_succ, Finset.sum_range_zero, valueOf, setPyramid13, List.getElem?_cons_zero, List.getElem?_cons_succ, Option.map_some, Option.getD_some,
    List.getD_cons_zero, List.getD_cons_succ] at h0 h1 h2 h3 h4 h5 h6 h7 h8 h9 h10 h11 h12
  intro n hn
  interval_cases n
  · linear_combination 
      (9861967387947785802573998704733898213826972773168782749642477820693769408941769871611403966174291848069039376603493568829025000000000000000 / 3808443087409855715782315626497093184591278339432578338067775192240730703509444823754176710244427309583833275670646656417594295848362053283) * h0 +
      (93169307230967737781576041938079278509103708665709057680109721580693113874887928906219878920535708392779376603493568829025000000000000000 / 3808443087409855715782315626497093184591278339432578338067775192240730703509444823754176710244427309583833275670646656417594295848362053283) * h1 +
      (-958208616437358444459954082523334477808171917081616749756065770461443286176161349884332208333220431283480623396506431170975000000000000000 / 3808443087409855715782315626497093184591278339432578338067775192240730703509444823754176710244427309583833275670646656417594295848362053283) * h2 +
      (93169307230967737781576041938079278509103708665709057680109721580693113874887928906219878920535708392779376603493568829025000000000000000 / 3808443087409855715782315626497093184591278339432578338067775192240730703509444823754176710244427309583833275670646656417594295848362053283) * h3 +
      (10064334644224487320708485022361300650815587466298599057918286304776343190067087085147270368241006431869554223396506431170975000000000000000 / 3808443087409855715782315626497093184591278339432578338067775192240730703509444823754176710244427309583833275670646656417594295848362053283) * h4 +
      (2398292410844321620399122608488309228132269653290176980828269189747539695102303700023190455494762571545814223396506431170975000000000000000 / 3808443087409855715782315626497093184591278339432578338067775192240730703509444823754176710244427309583833275670646656417594295848362053283) * h5 +
      (-13985169979584335962461132343719087373551641598473992980787940532352203694878312349015521457251481288777925776603493568829025000000000000000 / 3808443087409855715782315626497093184591278339432578338067775192240730703509444823754176710244427309583833275670646656417594295848362053283) * h6 +
      (2398292410844321620399122608488309228132269653290176980828269189747539695102303700023190455494762571545814223396506431170975000000000000000 / 3808443087409855715782315626497093184591278339432578338067775192240730703509444823754176710244427309583833275670646656417594295848362053283) * h7 +
      (-115616773798591869817212627539183867251222700738055469516738719916702890000000000000000000000000000000000 / 144531634493772539065988686610121769759344349579274313973503628232142572838384806682631289269804365140987) * h8 +
      (-27374256710597838383331654019244718124005851814059039696038609525785572103292506302531777224582308466748639560908792739961876058547505783517 / 13314429359426349237555448068693338457167842334412732434412875448342945142042362912669407979498631094943309680952867689960495765809976865932) * h9 +
      (21936402763615699837156180809144435509847407912880412328400658826714919137740779202589474185036576974448045601385226584942123941452494216483 / 13314429359426349237555448068693338457167842334412732434412875448342945142042362912669407979498631094943309680952867689960495765809976865932) * h10 +
      (21936402763615699837156180809144435509847407912880412328400658826714919137740779202589474185036576974448045601385226584942123941452494216483 / 13314429359426349237555448068693338457167842334412732434412875448342945142042362912669407979498631094943309680952867689960495765809976865932) * h11 +
      (-27374256710597838383331654019244718124005851814059039696038609525785572103292506302531777224582308466748639560908792739961876058547505783517 / 13314429359426349237555448068693338457167842334412732434412875448342945142042362912669407979498631094943309680952867689960495765809976865932) * h12
  · linear_combination 
      (93169307230967737781576041938079278509103708665709057680109721580693113874887928906219878920535708392779376603493568829025000000000000000 / 3808443087409855715782315626497093184591278339432578338067775192240730703509444823754176710244427309583833275670646656417594295848362053283) * h0 +
      (9861967387947785802573998704733898213826972773168782749642477820693769408941769871611403966174291848069039376603493568829025000000000000000 / 3808443087409855715782315626497093184591278339432578338067775192240730703509444823754176710244427309583833275670646656417594295848362053283) * h1 +
      (93169307230967737781576041938079278509103708665709057680109721580693113874887928906219878920535708392779376603493568829025000000000000000 / 3808443087409855715782315626497093184591278339432578338067775192240730703509444823754176710244427309583833275670646656417594295848362053283) * h2 +
      (-958208616437358444459954082523334477808171917081616749756065770461443286176161349884332208333220431283480623396506431170975000000000000000 / 3808443087409855715782315626497093184591278339432578338067775192240730703509444823754176710244427309583833275670646656417594295848362053283) * h3 +
      (2398292410844321620399122608488309228132269653290176980828269189747539695102303700023190455494762571545814223396506431170975000000000000000 / 3808443087409855715782315626497093184591278339432578338067775192240730703509444823754176710244427309583833275670646656417594295848362053283) * h4 +
      (10064334644224487320708485022361300650815587466298599057918286304776343190067087085147270368241006431869554223396506431170975000000000000000 / 3808443087409855715782315626497093184591278339432578338067775192240730703509444823754176710244427309583833275670646656417594295848362053283) * h5 +
      (2398292410844321620399122608488309228132269653290176980828269189747539695102303700023190455494762571545814223396506431170975000000000000000 / 3808443087409855715782315626497093184591278339432578338067775192240730703509444823754176710244427309583833275670646656417594295848362053283) * h6 +
      (-13985169979584335962461132343719087373551641598473992980787940532352203694878312349015521457251481288777925776603493568829025000000000000000 / 3808443087409855715782315626497093184591278339432578338067775192240730703509444823754176710244427309583833275670646656417594295848362053283) * h7 +
      (-115616773798591869817212627539183867251222700738055469516738719916702890000000000000000000000000000000000 / 144531634493772539065988686610121769759344349579274313973503628232142572838384806682631289269804365140987) * h8 +
      (-27374256710597838383331654019244718124005851814059039696038609525785572103292506302531777224582308466748639560908792739961876058547505783517 / 13314429359426349237555448068693338457167842334412732434412875448342945142042362912669407979498631094943309680952867689960495765809976865932) * h9 +
      (-27374256710597838383331654019244718124005851814059039696038609525785572103292506302531777224582308466748639560908792739961876058547505783517 / 13314429359426349237555448068693338457167842334412732434412875448342945142042362912669407979498631094943309680952867689960495765809976865932) * h10 +
      (21936402763615699837156180809144435509847407912880412328400658826714919137740779202589474185036576974448045601385226584942123941452494216483 / 13314429359426349237555448068693338457167842334412732434412875448342945142042362912669407979498631094943309680952867689960495765809976865932) * h11 +
      (21936402763615699837156180809144435509847407912880412328400658826714919137740779202589474185036576974448045601385226584942123941452494216483 / 13314429359426349237555448068693338457167842334412732434412875448342945142042362912669407979498631094943309680952867689960495765809976865932) * h12
  · linear_combination 
      (-958208616437358444459954082523334477808171917081616749756065770461443286176161349884332208333220431283480623396506431170975000000000000000 / 3808443087409855715782315626497093184591278339432578338067775192240730703509444823754176710244427309583833275670646656417594295848362053283) * h0 +
      (93169307230967737781576041938079278509103708665709057680109721580693113874887928906219878920535708392779376603493568829025000000000000000 / 3808443087409855715782315626497093184591278339432578338067775192240730703509444823754176710244427309583833275670646656417594295848362053283) * h1 +
      (9861967387947785802573998704733898213826972773168782749642477820693769408941769871611403966174291848069039376603493568829025000000000000000 / 3808443087409855715782315626497093184591278339432578338067775192240730703509444823754176710244427309583833275670646656417594295848362053283) * h2 +
      (93169307230967737781576041938079278509103708665709057680109721580693113874887928906219878920535708392779376603493568829025000000000000000 / 3808443087409855715782315626497093184591278339432578338067775192240730703509444823754176710244427309583833275670646656417594295848362053283) * h3 +
      (-13985169979584335962461132343719087373551641598473992980787940532352203694878312349015521457251481288777925776603493568829025000000000000000 / 3808443087409855715782315626497093184591278339432578338067775192240730703509444823754176710244427309583833275670646656417594295848362053283) * h4 +
      (2398292410844321620399122608488309228132269653290176980828269189747539695102303700023190455494762571545814223396506431170975000000000000000 / 3808443087409855715782315626497093184591278339432578338067775192240730703509444823754176710244427309583833275670646656417594295848362053283) * h5 +
      (10064334644224487320708485022361300650815587466298599057918286304776343190067087085147270368241006431869554223396506431170975000000000000000 / 3808443087409855715782315626497093184591278339432578338067775192240730703509444823754176710244427309583833275670646656417594295848362053283) * h6 +
      (2398292410844321620399122608488309228132269653290176980828269189747539695102303700023190455494762571545814223396506431170975000000000000000 / 3808443087409855715782315626497093184591278339432578338067775192240730703509444823754176710244427309583833275670646656417594295848362053283) * h7 +
      (-115616773798591869817212627539183867251222700738055469516738719916702890000000000000000000000000000000000 / 144531634493772539065988686610121769759344349579274313973503628232142572838384806682631289269804365140987) * h8 +
      (21936402763615699837156180809144435509847407912880412328400658826714919137740779202589474185036576974448045601385226584942123941452494216483 / 13314429359426349237555448068693338457167842334412732434412875448342945142042362912669407979498631094943309680952867689960495765809976865932) * h9 +
      (-27374256710597838383331654019244718124005851814059039696038609525785572103292506302531777224582308466748639560908792739961876058547505783517 / 13314429359426349237555448068693338457167842334412732434412875448342945142042362912669407979498631094943309680952867689960495765809976865932) * h10 +
      (-27374256710597838383331654019244718124005851814059039696038609525785572103292506302531777224582308466748639560908792739961876058547505783517 / 13314429359426349237555448068693338457167842334412732434412875448342945142042362912669407979498631094943309680952867689960495765809976865932) * h11 +
      (21936402763615699837156180809144435509847407912880412328400658826714919137740779202589474185036576974448045601385226584942123941452494216483 / 13314429359426349237555448068693338457167842334412732434412875448342945142042362912669407979498631094943309680952867689960495765809976865932) * h12
  · linear_combination 
      (93169307230967737781576041938079278509103708665709057680109721580693113874887928906219878920535708392779376603493568829025000000000000000 / 3808443087409855715782315626497093184591278339432578338067775192240730703509444823754176710244427309583833275670646656417594295848362053283) * h0 +
      (-958208616437358444459954082523334477808171917081616749756065770461443286176161349884332208333220431283480623396506431170975000000000000000 / 3808443087409855715782315626497093184591278339432578338067775192240730703509444823754176710244427309583833275670646656417594295848362053283) * h1 +
      (93169307230967737781576041938079278509103708665709057680109721580693113874887928906219878920535708392779376603493568829025000000000000000 / 3808443087409855715782315626497093184591278339432578338067775192240730703509444823754176710244427309583833275670646656417594295848362053283) * h2 +
      (9861967387947785802573998704733898213826972773168782749642477820693769408941769871611403966174291848069039376603493568829025000000000000000 / 3808443087409855715782315626497093184591278339432578338067775192240730703509444823754176710244427309583833275670646656417594295848362053283) * h3 +
      (2398292410844321620399122608488309228132269653290176980828269189747539695102303700023190455494762571545814223396506431170975000000000000000 / 3808443087409855715782315626497093184591278339432578338067775192240730703509444823754176710244427309583833275670646656417594295848362053283) * h4 +
      (-13985169979584335962461132343719087373551641598473992980787940532352203694878312349015521457251481288777925776603493568829025000000000000000 / 3808443087409855715782315626497093184591278339432578338067775192240730703509444823754176710244427309583833275670646656417594295848362053283) * h5 +
      (2398292410844321620399122608488309228132269653290176980828269189747539695102303700023190455494762571545814223396506431170975000000000000000 / 3808443087409855715782315626497093184591278339432578338067775192240730703509444823754176710244427309583833275670646656417594295848362053283) * h6 +
      (10064334644224487320708485022361300650815587466298599057918286304776343190067087085147270368241006431869554223396506431170975000000000000000 / 3808443087409855715782315626497093184591278339432578338067775192240730703509444823754176710244427309583833275670646656417594295848362053283) * h7 +
      (-115616773798591869817212627539183867251222700738055469516738719916702890000000000000000000000000000000000 / 144531634493772539065988686610121769759344349579274313973503628232142572838384806682631289269804365140987) * h8 +
      (21936402763615699837156180809144435509847407912880412328400658826714919137740779202589474185036576974448045601385226584942123941452494216483 / 13314429359426349237555448068693338457167842334412732434412875448342945142042362912669407979498631094943309680952867689960495765809976865932) * h9 +
      (21936402763615699837156180809144435509847407912880412328400658826714919137740779202589474185036576974448045601385226584942123941452494216483 / 13314429359426349237555448068693338457167842334412732434412875448342945142042362912669407979498631094943309680952867689960495765809976865932) * h10 +
      (-27374256710597838383331654019244718124005851814059039696038609525785572103292506302531777224582308466748639560908792739961876058547505783517 / 13314429359426349237555448068693338457167842334412732434412875448342945142042362912669407979498631094943309680952867689960495765809976865932) * h11 +
      (-27374256710597838383331654019244718124005851814059039696038609525785572103292506302531777224582308466748639560908792739961876058547505783517 / 13314429359426349237555448068693338457167842334412732434412875448342945142042362912669407979498631094943309680952867689960495765809976865932) * h12
  · linear_combination 
      (4156029895683189738817929456498218633864938154084791542125682741003471528075522925266775000000000000000 / 165366607742795987951695807235289441659151054681527406741346040574666677372843352658338195637312193016187) * h0 +
      (4156029895683189738817929456498218633864938154084791542125682741003471528075522925266775000000000000000 / 165366607742795987951695807235289441659151054681527406741346040574666677372843352658338195637312193016187) * h1 +
      (4156029895683189738817929456498218633864938154084791542125682741003471528075522925266775000000000000000 / 165366607742795987951695807235289441659151054681527406741346040574666677372843352658338195637312193016187) * h2 +
      (4156029895683189738817929456498218633864938154084791542125682741003471528075522925266775000000000000000 / 165366607742795987951695807235289441659151054681527406741346040574666677372843352658338195637312193016187) * h3 +
      (63036600092112298280172974673186334772164726690481839795474083153537878871924477074733225000000000000000 / 165366607742795987951695807235289441659151054681527406741346040574666677372843352658338195637312193016187) * h4 +
      (63036600092112298280172974673186334772164726690481839795474083153537878871924477074733225000000000000000 / 165366607742795987951695807235289441659151054681527406741346040574666677372843352658338195637312193016187) * h5 +
      (63036600092112298280172974673186334772164726690481839795474083153537878871924477074733225000000000000000 / 165366607742795987951695807235289441659151054681527406741346040574666677372843352658338195637312193016187) * h6 +
      (63036600092112298280172974673186334772164726690481839795474083153537878871924477074733225000000000000000 / 165366607742795987951695807235289441659151054681527406741346040574666677372843352658338195637312193016187) * h7 +
      (14655647382920114251373222840326945898486931813912079916865655394470110000000000000000000000000000000000 / 144531634493772539065988686610121769759344349579274313973503628232142572838384806682631289269804365140987) * h8 +
      (-105031429099224035944392844649246202002627949858675299076810953256573578761615193317368710730195634859013 / 578126537975090156263954746440487079037377398317097255894014512928570291353539226730525157079217460563948) * h9 +
      (-105031429099224035944392844649246202002627949858675299076810953256573578761615193317368710730195634859013 / 578126537975090156263954746440487079037377398317097255894014512928570291353539226730525157079217460563948) * h10 +
      (-105031429099224035944392844649246202002627949858675299076810953256573578761615193317368710730195634859013 / 578126537975090156263954746440487079037377398317097255894014512928570291353539226730525157079217460563948) * h11 +
      (-105031429099224035944392844649246202002627949858675299076810953256573578761615193317368710730195634859013 / 578126537975090156263954746440487079037377398317097255894014512928570291353539226730525157079217460563948) * h12
  · linear_combination 
      (3274354720769673020649695460821676998324094039366418343609259710298406896274549398442686120733974743311844376603493568829025000000000000000 / 8827563783892332231796620552702311841052877298667867320761022672874133755447781074784714854523010901494081888498595207049794295848362053283) * h0 +
      (3274354720769673020649695460821676998324094039366418343609259710298406896274549398442686120733974743311844376603493568829025000000000000000 / 8827563783892332231796620552702311841052877298667867320761022672874133755447781074784714854523010901494081888498595207049794295848362053283) * h1 +
      (2222976797101346838408165336360263242006818413619092536173084218256270496223500119652134033480218603635584376603493568829025000000000000000 / 8827563783892332231796620552702311841052877298667867320761022672874133755447781074784714854523010901494081888498595207049794295848362053283) * h2 +
      (2222976797101346838408165336360263242006818413619092536173084218256270496223500119652134033480218603635584376603493568829025000000000000000 / 8827563783892332231796620552702311841052877298667867320761022672874133755447781074784714854523010901494081888498595207049794295848362053283) * h3 +
      (-3771652050074930542882636736737006933443287326800744449347378821304042655233509377563662370054445466788619223396506431170975000000000000000 / 1210677609072620800231989299708125471870320619802710644625472288392672348428891427276361434034156282326415337157301894214605704151637946717) * h4 +
      (-3771652050074930542882636736737006933443287326800744449347378821304042655233509377563662370054445466788619223396506431170975000000000000000 / 1210677609072620800231989299708125471870320619802710644625472288392672348428891427276361434034156282326415337157301894214605704151637946717) * h5 +
      (3894390183305235157426725677135984489240030486207677627742638293724760839731274007560417542691798393535120776603493568829025000000000000000 / 1210677609072620800231989299708125471870320619802710644625472288392672348428891427276361434034156282326415337157301894214605704151637946717) * h6 +
      (3894390183305235157426725677135984489240030486207677627742638293724760839731274007560417542691798393535120776603493568829025000000000000000 / 1210677609072620800231989299708125471870320619802710644625472288392672348428891427276361434034156282326415337157301894214605704151637946717) * h7 +
      (113755739210286051299665228919144578246331897785833591449783840249891330000000000000000000000000000000000 / 433594903481317617197966059830365309278033048737822941920510884696427718515154420047893867809413095422961) * h8 +
      (2701454558015464970829048155979475218449478639394128480974235461018060614119284290426207960184081750219493003962978604477649 / 690129095766339902823803306687795752412572242635099303899096603359982021665305242123238488585717474110596015851914417910596) * h9 +
      (-1212280095171928468600539217925587313412801915246100257839356229535385233695291555744025511053570631472350996037021395522351 / 690129095766339902823803306687795752412572242635099303899096603359982021665305242123238488585717474110596015851914417910596) * h10 +
      (-767304669835075966754680322663447255774785750508455054389851616553361134001951069956942982291223013164194996037021395522351 / 690129095766339902823803306687795752412572242635099303899096603359982021665305242123238488585717474110596015851914417910596) * h11 +
      (-1212280095171928468600539217925587313412801915246100257839356229535385233695291555744025511053570631472350996037021395522351 / 690129095766339902823803306687795752412572242635099303899096603359982021665305242123238488585717474110596015851914417910596) * h12
  · linear_combination 
      (2222976797101346838408165336360263242006818413619092536173084218256270496223500119652134033480218603635584376603493568829025000000000000000 / 8827563783892332231796620552702311841052877298667867320761022672874133755447781074784714854523010901494081888498595207049794295848362053283) * h0 +
      (3274354720769673020649695460821676998324094039366418343609259710298406896274549398442686120733974743311844376603493568829025000000000000000 / 8827563783892332231796620552702311841052877298667867320761022672874133755447781074784714854523010901494081888498595207049794295848362053283) * h1 +
      (3274354720769673020649695460821676998324094039366418343609259710298406896274549398442686120733974743311844376603493568829025000000000000000 / 8827563783892332231796620552702311841052877298667867320761022672874133755447781074784714854523010901494081888498595207049794295848362053283) * h2 +
      (2222976797101346838408165336360263242006818413619092536173084218256270496223500119652134033480218603635584376603493568829025000000000000000 / 8827563783892332231796620552702311841052877298667867320761022672874133755447781074784714854523010901494081888498595207049794295848362053283) * h3 +
      (3894390183305235157426725677135984489240030486207677627742638293724760839731274007560417542691798393535120776603493568829025000000000000000 / 1210677609072620800231989299708125471870320619802710644625472288392672348428891427276361434034156282326415337157301894214605704151637946717) * h4 +
      (-3771652050074930542882636736737006933443287326800744449347378821304042655233509377563662370054445466788619223396506431170975000000000000000 / 1210677609072620800231989299708125471870320619802710644625472288392672348428891427276361434034156282326415337157301894214605704151637946717) * h5 +
      (-3771652050074930542882636736737006933443287326800744449347378821304042655233509377563662370054445466788619223396506431170975000000000000000 / 1210677609072620800231989299708125471870320619802710644625472288392672348428891427276361434034156282326415337157301894214605704151637946717) * h6 +
      (3894390183305235157426725677135984489240030486207677627742638293724760839731274007560417542691798393535120776603493568829025000000000000000 / 1210677609072620800231989299708125471870320619802710644625472288392672348428891427276361434034156282326415337157301894214605704151637946717) * h7 +
      (113755739210286051299665228919144578246331897785833591449783840249891330000000000000000000000000000000000 / 433594903481317617197966059830365309278033048737822941920510884696427718515154420047893867809413095422961) * h8 +
      (-1212280095171928468600539217925587313412801915246100257839356229535385233695291555744025511053570631472350996037021395522351 / 690129095766339902823803306687795752412572242635099303899096603359982021665305242123238488585717474110596015851914417910596) * h9 +
      (2701454558015464970829048155979475218449478639394128480974235461018060614119284290426207960184081750219493003962978604477649 / 690129095766339902823803306687795752412572242635099303899096603359982021665305242123238488585717474110596015851914417910596) * h10 +
      (-1212280095171928468600539217925587313412801915246100257839356229535385233695291555744025511053570631472350996037021395522351 / 690129095766339902823803306687795752412572242635099303899096603359982021665305242123238488585717474110596015851914417910596) * h11 +
      (-767304669835075966754680322663447255774785750508455054389851616553361134001951069956942982291223013164194996037021395522351 / 690129095766339902823803306687795752412572242635099303899096603359982021665305242123238488585717474110596015851914417910596) * h12
  · linear_combination 
      (2222976797101346838408165336360263242006818413619092536173084218256270496223500119652134033480218603635584376603493568829025000000000000000 / 8827563783892332231796620552702311841052877298667867320761022672874133755447781074784714854523010901494081888498595207049794295848362053283) * h0 +
      (2222976797101346838408165336360263242006818413619092536173084218256270496223500119652134033480218603635584376603493568829025000000000000000 / 8827563783892332231796620552702311841052877298667867320761022672874133755447781074784714854523010901494081888498595207049794295848362053283) * h1 +
      (3274354720769673020649695460821676998324094039366418343609259710298406896274549398442686120733974743311844376603493568829025000000000000000 / 8827563783892332231796620552702311841052877298667867320761022672874133755447781074784714854523010901494081888498595207049794295848362053283) * h2 +
      (3274354720769673020649695460821676998324094039366418343609259710298406896274549398442686120733974743311844376603493568829025000000000000000 / 8827563783892332231796620552702311841052877298667867320761022672874133755447781074784714854523010901494081888498595207049794295848362053283) * h3 +
      (3894390183305235157426725677135984489240030486207677627742638293724760839731274007560417542691798393535120776603493568829025000000000000000 / 1210677609072620800231989299708125471870320619802710644625472288392672348428891427276361434034156282326415337157301894214605704151637946717) * h4 +
      (3894390183305235157426725677135984489240030486207677627742638293724760839731274007560417542691798393535120776603493568829025000000000000000 / 1210677609072620800231989299708125471870320619802710644625472288392672348428891427276361434034156282326415337157301894214605704151637946717) * h5 +
      (-3771652050074930542882636736737006933443287326800744449347378821304042655233509377563662370054445466788619223396506431170975000000000000000 / 1210677609072620800231989299708125471870320619802710644625472288392672348428891427276361434034156282326415337157301894214605704151637946717) * h6 +
      (-3771652050074930542882636736737006933443287326800744449347378821304042655233509377563662370054445466788619223396506431170975000000000000000 / 1210677609072620800231989299708125471870320619802710644625472288392672348428891427276361434034156282326415337157301894214605704151637946717) * h7 +
      (113755739210286051299665228919144578246331897785833591449783840249891330000000000000000000000000000000000 / 433594903481317617197966059830365309278033048737822941920510884696427718515154420047893867809413095422961) * h8 +
      (-767304669835075966754680322663447255774785750508455054389851616553361134001951069956942982291223013164194996037021395522351 / 690129095766339902823803306687795752412572242635099303899096603359982021665305242123238488585717474110596015851914417910596) * h9 +
      (-1212280095171928468600539217925587313412801915246100257839356229535385233695291555744025511053570631472350996037021395522351 / 690129095766339902823803306687795752412572242635099303899096603359982021665305242123238488585717474110596015851914417910596) * h10 +
      (2701454558015464970829048155979475218449478639394128480974235461018060614119284290426207960184081750219493003962978604477649 / 690129095766339902823803306687795752412572242635099303899096603359982021665305242123238488585717474110596015851914417910596) * h11 +
      (-1212280095171928468600539217925587313412801915246100257839356229535385233695291555744025511053570631472350996037021395522351 / 690129095766339902823803306687795752412572242635099303899096603359982021665305242123238488585717474110596015851914417910596) * h12
  · linear_combination 
      (3274354720769673020649695460821676998324094039366418343609259710298406896274549398442686120733974743311844376603493568829025000000000000000 / 8827563783892332231796620552702311841052877298667867320761022672874133755447781074784714854523010901494081888498595207049794295848362053283) * h0 +
      (2222976797101346838408165336360263242006818413619092536173084218256270496223500119652134033480218603635584376603493568829025000000000000000 / 8827563783892332231796620552702311841052877298667867320761022672874133755447781074784714854523010901494081888498595207049794295848362053283) * h1 +
      (2222976797101346838408165336360263242006818413619092536173084218256270496223500119652134033480218603635584376603493568829025000000000000000 / 8827563783892332231796620552702311841052877298667867320761022672874133755447781074784714854523010901494081888498595207049794295848362053283) * h2 +
      (3274354720769673020649695460821676998324094039366418343609259710298406896274549398442686120733974743311844376603493568829025000000000000000 / 8827563783892332231796620552702311841052877298667867320761022672874133755447781074784714854523010901494081888498595207049794295848362053283) * h3 +
      (-3771652050074930542882636736737006933443287326800744449347378821304042655233509377563662370054445466788619223396506431170975000000000000000 / 1210677609072620800231989299708125471870320619802710644625472288392672348428891427276361434034156282326415337157301894214605704151637946717) * h4 +
      (3894390183305235157426725677135984489240030486207677627742638293724760839731274007560417542691798393535120776603493568829025000000000000000 / 1210677609072620800231989299708125471870320619802710644625472288392672348428891427276361434034156282326415337157301894214605704151637946717) * h5 +
      (3894390183305235157426725677135984489240030486207677627742638293724760839731274007560417542691798393535120776603493568829025000000000000000 / 1210677609072620800231989299708125471870320619802710644625472288392672348428891427276361434034156282326415337157301894214605704151637946717) * h6 +
      (-3771652050074930542882636736737006933443287326800744449347378821304042655233509377563662370054445466788619223396506431170975000000000000000 / 1210677609072620800231989299708125471870320619802710644625472288392672348428891427276361434034156282326415337157301894214605704151637946717) * h7 +
      (113755739210286051299665228919144578246331897785833591449783840249891330000000000000000000000000000000000 / 433594903481317617197966059830365309278033048737822941920510884696427718515154420047893867809413095422961) * h8 +
      (-1212280095171928468600539217925587313412801915246100257839356229535385233695291555744025511053570631472350996037021395522351 / 690129095766339902823803306687795752412572242635099303899096603359982021665305242123238488585717474110596015851914417910596) * h9 +
      (-767304669835075966754680322663447255774785750508455054389851616553361134001951069956942982291223013164194996037021395522351 / 690129095766339902823803306687795752412572242635099303899096603359982021665305242123238488585717474110596015851914417910596) * h10 +
      (-1212280095171928468600539217925587313412801915246100257839356229535385233695291555744025511053570631472350996037021395522351 / 690129095766339902823803306687795752412572242635099303899096603359982021665305242123238488585717474110596015851914417910596) * h11 +
      (2701454558015464970829048155979475218449478639394128480974235461018060614119284290426207960184081750219493003962978604477649 / 690129095766339902823803306687795752412572242635099303899096603359982021665305242123238488585717474110596015851914417910596) * h12
  · linear_combination 
      (731838638061648656094042983109998236622486704577172366177816620434451599849196718973921720793055617548008757961734025306257400000000000000000000000000000000 / 1339647970410257641132783817886952890003369705925702153376684733744587689412840924188210691634473610167814726789457399720254066497854102817842965283759581249) * h0 +
      (-229086616999465434226475783294607017896672498019743392409567874227266575580548525519630024228642025291794200000000000000000000000000000000 / 8827563783892332231796620552702311841052877298667867320761022672874133755447781074784714854523010901494081888498595207049794295848362053283) * h1 +
      (-46634459214400177387015423574480760425857546432800807424934213424214129884128849139180493068981460817330414012755324897914200000000000000000000000000000000 / 446549323470085880377594605962317630001123235308567384458894911248195896470946974729403563878157870055938242263152466573418022165951367605947655094586527083) * h2 +
      (-229086616999465434226475783294607017896672498019743392409567874227266575580548525519630024228642025291794200000000000000000000000000000000 / 8827563783892332231796620552702311841052877298667867320761022672874133755447781074784714854523010901494081888498595207049794295848362053283) * h3 +
      (601664324141411890173831146285974632965955403776180542445600826298106174869866129642259308826433874200943561132116908888376600000000000000000000000000000000 / 183729264553684645180142432711884383833141629847329181850425343151704591990937005313459992463297313665718583478801262846783651841490718495357034716240418751) * h4 +
      (-1086865738482703394638332808977082842014736860266377017440520909678034402124437469413399471390184165554127800000000000000000000000000000000 / 1210677609072620800231989299708125471870320619802710644625472288392672348428891427276361434034156282326415337157301894214605704151637946717) * h5 +
      (-270077691563437298081258107547465884934103940099394246007018434408987814631717136749203891173566125799056438867883091111623400000000000000000000000000000000 / 183729264553684645180142432711884383833141629847329181850425343151704591990937005313459992463297313665718583478801262846783651841490718495357034716240418751) * h6 +
      (-1086865738482703394638332808977082842014736860266377017440520909678034402124437469413399471390184165554127800000000000000000000000000000000 / 1210677609072620800231989299708125471870320619802710644625472288392672348428891427276361434034156282326415337157301894214605704151637946717) * h7 +
      (-157373737373737632417939644544801897366821428972239422324606315299969420000000000000000000000000000000000 / 433594903481317617197966059830365309278033048737822941920510884696427718515154420047893867809413095422961) * h8 +
      (-8868111769333162468522235479283310270018835445341325115169371733160926505412608081444359492428261209889777875145606479368628175642517350551 / 39943288078279047712666344206080015371503527003238197303238626345028835426127088738008223938495893284829929042858603069881487297429930597796) * h9 +
      (28114882836326991196843640642008554955371109349863263903160079531214441925362356047396579064785902871007735996574908014309371824357482649449 / 39943288078279047712666344206080015371503527003238197303238626345028835426127088738008223938495893284829929042858603069881487297429930597796) * h10 +
      (28114882836326991196843640642008554955371109349863263903160079531214441925362356047396579064785902871007735996574908014309371824357482649449 / 39943288078279047712666344206080015371503527003238197303238626345028835426127088738008223938495893284829929042858603069881487297429930597796) * h11 +
      (-8868111769333162468522235479283310270018835445341325115169371733160926505412608081444359492428261209889777875145606479368628175642517350551 / 39943288078279047712666344206080015371503527003238197303238626345028835426127088738008223938495893284829929042858603069881487297429930597796) * h12
  · linear_combination 
      (-229086616999465434226475783294607017896672498019743392409567874227266575580548525519630024228642025291794200000000000000000000000000000000 / 8827563783892332231796620552702311841052877298667867320761022672874133755447781074784714854523010901494081888498595207049794295848362053283) * h0 +
      (731838638061648656094042983109998236622486704577172366177816620434451599849196718973921720793055617548008757961734025306257400000000000000000000000000000000 / 1339647970410257641132783817886952890003369705925702153376684733744587689412840924188210691634473610167814726789457399720254066497854102817842965283759581249) * h1 +
      (-229086616999465434226475783294607017896672498019743392409567874227266575580548525519630024228642025291794200000000000000000000000000000000 / 8827563783892332231796620552702311841052877298667867320761022672874133755447781074784714854523010901494081888498595207049794295848362053283) * h2 +
      (-46634459214400177387015423574480760425857546432800807424934213424214129884128849139180493068981460817330414012755324897914200000000000000000000000000000000 / 446549323470085880377594605962317630001123235308567384458894911248195896470946974729403563878157870055938242263152466573418022165951367605947655094586527083) * h3 +
      (-1086865738482703394638332808977082842014736860266377017440520909678034402124437469413399471390184165554127800000000000000000000000000000000 / 1210677609072620800231989299708125471870320619802710644625472288392672348428891427276361434034156282326415337157301894214605704151637946717) * h4 +
      (601664324141411890173831146285974632965955403776180542445600826298106174869866129642259308826433874200943561132116908888376600000000000000000000000000000000 / 183729264553684645180142432711884383833141629847329181850425343151704591990937005313459992463297313665718583478801262846783651841490718495357034716240418751) * h5 +
      (-1086865738482703394638332808977082842014736860266377017440520909678034402124437469413399471390184165554127800000000000000000000000000000000 / 1210677609072620800231989299708125471870320619802710644625472288392672348428891427276361434034156282326415337157301894214605704151637946717) * h6 +
      (-270077691563437298081258107547465884934103940099394246007018434408987814631717136749203891173566125799056438867883091111623400000000000000000000000000000000 / 183729264553684645180142432711884383833141629847329181850425343151704591990937005313459992463297313665718583478801262846783651841490718495357034716240418751) * h7 +
      (-157373737373737632417939644544801897366821428972239422324606315299969420000000000000000000000000000000000 / 433594903481317617197966059830365309278033048737822941920510884696427718515154420047893867809413095422961) * h8 +
      (-8868111769333162468522235479283310270018835445341325115169371733160926505412608081444359492428261209889777875145606479368628175642517350551 / 39943288078279047712666344206080015371503527003238197303238626345028835426127088738008223938495893284829929042858603069881487297429930597796) * h9 +
      (-8868111769333162468522235479283310270018835445341325115169371733160926505412608081444359492428261209889777875145606479368628175642517350551 / 39943288078279047712666344206080015371503527003238197303238626345028835426127088738008223938495893284829929042858603069881487297429930597796) * h10 +
      (28114882836326991196843640642008554955371109349863263903160079531214441925362356047396579064785902871007735996574908014309371824357482649449 / 39943288078279047712666344206080015371503527003238197303238626345028835426127088738008223938495893284829929042858603069881487297429930597796) * h11 +
      (28114882836326991196843640642008554955371109349863263903160079531214441925362356047396579064785902871007735996574908014309371824357482649449 / 39943288078279047712666344206080015371503527003238197303238626345028835426127088738008223938495893284829929042858603069881487297429930597796) * h12
  · linear_combination 
      (-46634459214400177387015423574480760425857546432800807424934213424214129884128849139180493068981460817330414012755324897914200000000000000000000000000000000 / 446549323470085880377594605962317630001123235308567384458894911248195896470946974729403563878157870055938242263152466573418022165951367605947655094586527083) * h0 +
      (-229086616999465434226475783294607017896672498019743392409567874227266575580548525519630024228642025291794200000000000000000000000000000000 / 8827563783892332231796620552702311841052877298667867320761022672874133755447781074784714854523010901494081888498595207049794295848362053283) * h1 +
      (731838638061648656094042983109998236622486704577172366177816620434451599849196718973921720793055617548008757961734025306257400000000000000000000000000000000 / 1339647970410257641132783817886952890003369705925702153376684733744587689412840924188210691634473610167814726789457399720254066497854102817842965283759581249) * h2 +
      (-229086616999465434226475783294607017896672498019743392409567874227266575580548525519630024228642025291794200000000000000000000000000000000 / 8827563783892332231796620552702311841052877298667867320761022672874133755447781074784714854523010901494081888498595207049794295848362053283) * h3 +
      (-270077691563437298081258107547465884934103940099394246007018434408987814631717136749203891173566125799056438867883091111623400000000000000000000000000000000 / 183729264553684645180142432711884383833141629847329181850425343151704591990937005313459992463297313665718583478801262846783651841490718495357034716240418751) * h4 +
      (-1086865738482703394638332808977082842014736860266377017440520909678034402124437469413399471390184165554127800000000000000000000000000000000 / 1210677609072620800231989299708125471870320619802710644625472288392672348428891427276361434034156282326415337157301894214605704151637946717) * h5 +
      (601664324141411890173831146285974632965955403776180542445600826298106174869866129642259308826433874200943561132116908888376600000000000000000000000000000000 / 183729264553684645180142432711884383833141629847329181850425343151704591990937005313459992463297313665718583478801262846783651841490718495357034716240418751) * h6 +
      (-1086865738482703394638332808977082842014736860266377017440520909678034402124437469413399471390184165554127800000000000000000000000000000000 / 1210677609072620800231989299708125471870320619802710644625472288392672348428891427276361434034156282326415337157301894214605704151637946717) * h7 +
      (-157373737373737632417939644544801897366821428972239422324606315299969420000000000000000000000000000000000 / 433594903481317617197966059830365309278033048737822941920510884696427718515154420047893867809413095422961) * h8 +
      (28114882836326991196843640642008554955371109349863263903160079531214441925362356047396579064785902871007735996574908014309371824357482649449 / 39943288078279047712666344206080015371503527003238197303238626345028835426127088738008223938495893284829929042858603069881487297429930597796) * h9 +
      (-8868111769333162468522235479283310270018835445341325115169371733160926505412608081444359492428261209889777875145606479368628175642517350551 / 39943288078279047712666344206080015371503527003238197303238626345028835426127088738008223938495893284829929042858603069881487297429930597796) * h10 +
      (-8868111769333162468522235479283310270018835445341325115169371733160926505412608081444359492428261209889777875145606479368628175642517350551 / 39943288078279047712666344206080015371503527003238197303238626345028835426127088738008223938495893284829929042858603069881487297429930597796) * h11 +
      (28114882836326991196843640642008554955371109349863263903160079531214441925362356047396579064785902871007735996574908014309371824357482649449 / 39943288078279047712666344206080015371503527003238197303238626345028835426127088738008223938495893284829929042858603069881487297429930597796) * h12
  · linear_combination 
      (-229086616999465434226475783294607017896672498019743392409567874227266575580548525519630024228642025291794200000000000000000000000000000000 / 8827563783892332231796620552702311841052877298667867320761022672874133755447781074784714854523010901494081888498595207049794295848362053283) * h0 +
      (-46634459214400177387015423574480760425857546432800807424934213424214129884128849139180493068981460817330414012755324897914200000000000000000000000000000000 / 446549323470085880377594605962317630001123235308567384458894911248195896470946974729403563878157870055938242263152466573418022165951367605947655094586527083) * h1 +
      (-229086616999465434226475783294607017896672498019743392409567874227266575580548525519630024228642025291794200000000000000000000000000000000 / 8827563783892332231796620552702311841052877298667867320761022672874133755447781074784714854523010901494081888498595207049794295848362053283) * h2 +
      (731838638061648656094042983109998236622486704577172366177816620434451599849196718973921720793055617548008757961734025306257400000000000000000000000000000000 / 1339647970410257641132783817886952890003369705925702153376684733744587689412840924188210691634473610167814726789457399720254066497854102817842965283759581249) * h3 +
      (-1086865738482703394638332808977082842014736860266377017440520909678034402124437469413399471390184165554127800000000000000000000000000000000 / 1210677609072620800231989299708125471870320619802710644625472288392672348428891427276361434034156282326415337157301894214605704151637946717) * h4 +
      (-270077691563437298081258107547465884934103940099394246007018434408987814631717136749203891173566125799056438867883091111623400000000000000000000000000000000 / 183729264553684645180142432711884383833141629847329181850425343151704591990937005313459992463297313665718583478801262846783651841490718495357034716240418751) * h5 +
      (-1086865738482703394638332808977082842014736860266377017440520909678034402124437469413399471390184165554127800000000000000000000000000000000 / 1210677609072620800231989299708125471870320619802710644625472288392672348428891427276361434034156282326415337157301894214605704151637946717) * h6 +
      (601664324141411890173831146285974632965955403776180542445600826298106174869866129642259308826433874200943561132116908888376600000000000000000000000000000000 / 183729264553684645180142432711884383833141629847329181850425343151704591990937005313459992463297313665718583478801262846783651841490718495357034716240418751) * h7 +
      (-157373737373737632417939644544801897366821428972239422324606315299969420000000000000000000000000000000000 / 433594903481317617197966059830365309278033048737822941920510884696427718515154420047893867809413095422961) * h8 +
      (28114882836326991196843640642008554955371109349863263903160079531214441925362356047396579064785902871007735996574908014309371824357482649449 / 39943288078279047712666344206080015371503527003238197303238626345028835426127088738008223938495893284829929042858603069881487297429930597796) * h9 +
      (28114882836326991196843640642008554955371109349863263903160079531214441925362356047396579064785902871007735996574908014309371824357482649449 / 39943288078279047712666344206080015371503527003238197303238626345028835426127088738008223938495893284829929042858603069881487297429930597796) * h10 +
      (-8868111769333162468522235479283310270018835445341325115169371733160926505412608081444359492428261209889777875145606479368628175642517350551 / 39943288078279047712666344206080015371503527003238197303238626345028835426127088738008223938495893284829929042858603069881487297429930597796) * h11 +
      (-8868111769333162468522235479283310270018835445341325115169371733160926505412608081444359492428261209889777875145606479368628175642517350551 / 39943288078279047712666344206080015371503527003238197303238626345028835426127088738008223938495893284829929042858603069881487297429930597796) * h12

theorem prisma6_values (u : Nat → ℝ) (hz : ∀ p ∈ rulePrisma6 Real.sqrt, ∑ n ∈ Finset.range 6, valueOf (setPrisma6 (p.1.getD 0 0) (p.1.getD 1 0) (p.1.getD 2 0)) n * u n = 0) : ∀ n < 6, u n = 0 := by
  have hq : Real.sqrt (3 / 5) ^ 2 = 3 / 5 := Real.sq_sqrt (by norm_num)
  unfold rulePrisma6 at hz
  generalize Real.sqrt (3 / 5) = q at hq hz
  simp only [List.forall_mem_cons] at hz
  obtain ⟨h0, h1, h2, h3, h4, h5, h6, h7, h8, -⟩ := hz
  clear h6 h7 h8
  simp only [Finset.sum_range_succ, Finset.sum_range_zero, valueOf, setPrisma6, List.getElem?_cons_zero, List.getElem?_cons_succ, Option.map_some, Option.getD_some,
    List.getD_cons_zero, List.getD_cons_succ] at h0 h1 h2 h3 h4 h5
  intro n hn
  interval_cases n
  · linear_combination ((0) + (25 / 9) * q) * h0 + ((0) + (-5 / 9) * q) * h1 + ((0) + (-5 / 9) * q) * h2 + ((5 / 3) + (-25 / 9) * q) * h3 + ((-1 / 3) +
      (5 / 9) * q) * h4 + ((-1 / 3) + (5 / 9) * q) * h5 + (((-5 / 6) * q ^ 0) * u 0 + ((5 / 6) * q ^ 0) * u 3) * hq
  · linear_combination ((0) + (-5 / 9) * q) * h0 + ((0) + (25 / 9) * q) * h1 + ((0) + (-5 / 9) * q) * h2 + ((-1 / 3) + (5 / 9) * q) * h3 + ((5 / 3) +
      (-25 / 9) * q) * h4 + ((-1 / 3) + (5 / 9) * q) * h5 + (((-5 / 6) * q ^ 0) * u 1 + ((5 / 6) * q ^ 0) * u 4) * hq
  · linear_combination ((0) + (-5 / 9) * q) * h0 + ((0) + (-5 / 9) * q) * h1 + ((0) + (25 / 9) * q) * h2 + ((-1 / 3) + (5 / 9) * q) * h3 + ((-1 / 3) +
      (5 / 9) * q) * h4 + ((5 / 3) + (-25 / 9) * q) * h5 + (((-5 / 6) * q ^ 0) * u 2 + ((5 / 6) * q ^ 0) * u 5) * hq
  · linear_combination ((0) + (-25 / 9) * q) * h0 + ((0) + (5 / 9) * q) * h1 + ((0) + (5 / 9) * q) * h2 + ((5 / 3) + (25 / 9) * q) * h3 + ((-1 / 3) +
      (-5 / 9) * q) * h4 + ((-1 / 3) + (-5 / 9) * q) * h5 + (((5 / 6) * q ^ 0) * u 0 + ((-5 / 6) * q ^ 0) * u 3) * hq
  · linear_combination ((0) + (5 / 9) * q) * h0 + ((0) + (-25 / 9) * q) * h1 + ((0) + (5 / 9) * q) * h2 + ((-1 / 3) + (-5 / 9) * q) * h3 + ((5 / 3) +
      (25 / 9) * q) * h4 + ((-1 / 3) + (-5 / 9) * q) * h5 + (((5 / 6) * q ^ 0) * u 1 + ((-5 / 6) * q ^ 0) * u 4) * hq
  · linear_combination ((0) + (5 / 9) * q) * h0 + ((0) + (5 / 9) * q) * h1 + ((0) + (-25 / 9) * q) * h2 + ((-1 / 3) + (-5 / 9) * q) * h3 + ((-1 / 3) +
      (-5 / 9) * q) * h4 + ((5 / 3) + (25 / 9) * q) * h5 + (((5 / 6) * q ^ 0) * u 2 + ((-5 / 6) * q ^ 0) * u 5) * hq

end Verif.Fem
