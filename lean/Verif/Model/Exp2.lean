import Verif.Model.Log
import Verif.Model.Series

/-!
# `exp2_accurate` and `cbrt_iter`
-/

namespace Hmath

/-- `EXP_TABLE` (src/ubigint/funcs/exp.rs 71-585) -/
def EXP_TABLE : List Nat :=
  [4611686018427387904, 4617933561212708776, 4624189567668517720, 4630454049260717505, 4636727017470743990, 4643008483795587159,
   4649298459747812202, 4655596956855580605, 4661903986662671289, 4668219560728501758, 4674543690628149290, 4680876387952372151,
   4687217664307630837, 4693567531316109348, 4699926000615736486, 4706293083860207188, 4712668792719003883, 4719053138877417881,
   4725446134036570787, 4731847789913435949, 4738258118240859931, 4744677130767584019, 4751104839258265753, 4757541255493500485,
   4763986391269842979, 4770440258399829021, 4776902868711997079, 4783374234050909975, 4789854366277176596, 4796343277267473632,
   4802840978914567342, 4809347483127335355, 4815862801830788490, 4822386946966092618, 4828919930490590543, 4835461764377823921,
   4842012460617555201, 4848572031215789604, 4855140488194797123, 4861717843593134561, 4868304109465667592, 4874899297883592856,
   4881503420934460086, 4888116490722194255, 4894738519367117768, 4901369519005972669, 4908009501791942890, 4914658479894676520,
   4921316465500308115, 4927983470811481030, 4934659508047369781, 4941344589443702446, 4948038727252783086, 4954741933743514200,
   4961454221201419217, 4968175601928665007, 4974906088244084429, 4981645692483198911, 4988394426998241059, 4995152304158177292,
   5001919336348730514, 5008695535972402814, 5015480915448498200, 5022275487213145356, 5029079263719320435, 5035892257436869888,
   5042714480852533314, 5049545946469966345, 5056386666809763566, 5063236654409481460, 5070095921823661386, 5076964481623852591,
   5083842346398635250, 5090729528753643538, 5097626041311588731, 5104531896712282348, 5111447107612659306, 5118371686686801129,
   5125305646625959168, 5132249000138577866, 5139201759950318048, 5146163938804080244, 5153135549460028048, 5160116604695611497,
   5167107117305590498, 5174107100102058270, 5181116565914464832, 5188135527589640514, 5195163997991819502, 5202201990002663415,
   5209249516521284917, 5216306590464271356, 5223373224765708437, 5230449432377203929, 5237535226267911401, 5244630619424553994,
   5251735624851448219, 5258850255570527794, 5265974524621367510, 5273108445061207130, 5280252029964975318, 5287405292425313604,
   5294568245552600382, 5301740902474974933, 5308923276338361493, 5316115380306493341, 5323317227560936928, 5330528831301116034,
   5337750204744335963, 5344981361125807763, 5352222313698672489, 5359473075734025487, 5366733660520940720, 5374004081366495126,
   5381284351595793002, 5388574484551990431, 5395874493596319735, 5403184392108113961, 5410504193484831407, 5417833911142080174,
   5425173558513642752, 5432523149051500645, 5439882696225859025, 5447252213525171417, 5454631714456164423, 5462021212543862476,
   5469420721331612629, 5476830254381109377, 5484249825272419511, 5491679447604007010, 5499119134992757962, 5506568901074005522,
   5514028759501554900, 5521498723947708391, 5528978808103290427, 5536469025677672673, 5543969390398799154, 5551479916013211411,
   5559000616286073701, 5566531505001198220, 5574072595961070373, 5581623902986874061, 5589185439918517022, 5596757220614656191,
   5604339258952723100, 5611931568828949315, 5619534164158391904, 5627147058874958938, 5634770266931435030, 5642403802299506910,
   5650047678969789029, 5657701910951849201, 5665366512274234280, 5673041496984495873, 5680726879149216084, 5688422672854033295,
   5696128892203667984, 5703845551321948571, 5711572664351837311, 5719310245455456210, 5727058308814112982, 5734816868628327041,
   5742585939117855528, 5750365534521719369, 5758155669098229378, 5765956357125012386, 5773767612899037406, 5781589450736641844,
   5789421884973557729, 5797264929964937993, 5805118600085382779, 5812982909728965788, 5820857873309260657, 5828743505259367380,
   5836639820031938756, 5844546832099206882, 5852464555953009676, 5860393006104817436, 5868332197085759439, 5876282143446650570,
   5884242859758017993, 5892214360610127856, 5900196660613012029, 5908189774396494886, 5916193716610220111, 5924208501923677553,
   5932234145026230114, 5940270660627140663, 5948318063455599004, 5956376368260748865, 5964445589811714934, 5972525742897629925,
   5980616842327661685, 5988718902931040333, 5996831939557085445, 6004955967075233263, 6013091000375063950, 6021237054366328881,
   6029394143978977965, 6037562284163187015, 6045741489889385140, 6053931776148282192, 6062133157950896232, 6070345650328581048,
   6078569268333053700, 6086804027036422110, 6095049941531212685, 6103307026930397976, 6111575298367424380, 6119854770996239873,
   6128145459991321788, 6136447380547704623, 6144760547881007892, 6153084977227464011, 6161420683843946224, 6169767683007996563,
   6178125990017853851, 6186495620192481741, 6194876588871596788, 6203268911415696568, 6211672603206087828, 6220087679644914678,
   6228514156155186817, 6236952048180807805, 6245401371186603363, 6253862140658349719, 6262334372102801992, 6270818081047722609,
   6279313283041909767, 6287819993655225927, 6296338228478626354, 6304868003124187691, 6313409333225136570, 6321962234435878267,
   6330526722432025392, 6339102812910426620, 6347690521589195457, 6356289864207739053, 6364900856526787044, 6373523514328420440,
   6382157853416100551, 6390803889614697950, 6399461638770521476, 6408131116751347279, 6416812339446447901, 6425505322766621397,
   6434210082644220497, 6442926635033181806, 6451654995909055044, 6460395181269032327, 6469147207131977483, 6477911089538455417,
   6486686844550761504, 6495474488252951030, 6504274036750868672, 6513085506172178013, 6521908912666391106, 6530744272404898065,
   6539591601580996712, 6548450916409922250, 6557322233128876981, 6566205567997060073, 6575100937295697351, 6584008357328071142,
   6592927844419550152, 6601859414917619391, 6610803085191910132, 6619758871634229911, 6628726790658592574, 6637706858701248356,
   6646699092220714009, 6655703507697802965, 6664720121635655540, 6673748950559769184, 6682790011018028767, 6691843319580736907,
   6700908892840644341, 6709986747412980336, 6719076899935483140, 6728179367068430476, 6737294165494670077, 6746421311919650262,
   6755560823071450551, 6764712715700812329, 6773877006581169542, 6783053712508679441, 6792242850302253364, 6801444436803587566,
   6810658488877194079, 6819885023410431628, 6829124057313536577, 6838375607519653924, 6847639690984868337, 6856916324688235226,
   6866205525631811867, 6875507310840688563, 6884821697363019841, 6894148702270055706, 6903488342656172924, 6912840635638906351,
   6922205598358980312, 6931583247980340008, 6940973601690182982, 6950376676698990612, 6959792490240559659, 6969221059572033851,
   6978662401973935513, 6988116534750197236, 6997583475228193593, 7007063240758772896, 7016555848716288996, 7026061316498633128,
   7035579661527265795, 7045110901247248700, 7054655053127276718, 7064212134659709912, 7073782163360605593, 7083365156769750424,
   7092961132450692565, 7102570107990773865, 7112192101001162094, 7121827129116883223, 7131475209996853740, 7141136361323913023,
   7150810600804855740, 7160497946170464309, 7170198415175541390, 7179912025598942429, 7189638795243608238, 7199378741936597630,
   7209131883529120089, 7218898237896568485, 7228677822938551842, 7238470656578928138, 7248276756765837157, 7258096141471733389,
   7267928828693418961, 7277774836452076628, 7287634182793302801, 7297506885787140618, 7307392963528113062, 7317292434135256130,
   7327205315752152036, 7337131626546962464, 7347071384712461870, 7357024608466070823, 7366991316049889394, 7376971525730730590,
   7386965255800153832, 7396972524574498482, 7406993350394917410, 7417027751627410611, 7427075746662858865, 7437137353917057446,
   7447212591830749870, 7457301478869661696, 7467404033524534368, 7477520274311159107, 7487650219770410842, 7497793888468282197,
   7507951298995917514, 7518122469969646927, 7528307420031020486, 7538506167846842316, 7548718732109204835, 7558945131535523009,
   7569185384868568661, 7579439510876504817, 7589707528352920109, 7599989456116863214, 7610285313012877354, 7620595117911034823,
   7630918889706971580, 7641256647321921879, 7651608409702752944, 7661974195821999698, 7672354024677899535, 7682747915294427138,
   7693155886721329348, 7703577958034160077, 7714014148334315267, 7724464476749067904, 7734928962431603070, 7745407624561053049,
   7755900482342532474, 7766407555007173531, 7776928861812161204, 7787464422040768568, 7798014255002392130, 7808578380032587222,
   7819156816493103437, 7829749583771920117, 7840356701283281882, 7850978188467734219, 7861614064792159106, 7872264349749810693,
   7882929062860351032, 7893608223669885848, 7904301851751000362, 7915009966702795169, 7925732588150922154, 7936469735747620463,
   7947221429171752520, 7957987688128840099, 7968768532351100432, 7979563981597482381, 7990374055653702648, 8001198774332282039,
   8012038157472581777, 8022892224940839862, 8033760996630207480, 8044644492460785468, 8055542732379660816, 8066455736360943232,
   8077383524405801747, 8088326116542501375, 8099283532826439816, 8110255793340184219, 8121242918193507985, 8132244927523427625,
   8143261841494239668, 8154293680297557614, 8165340464152348946, 8176402213304972184, 8187478948029213992, 8198570688626326336,
   8209677455425063692, 8220799268781720304, 8231936149080167494, 8243088116731891019, 8254255192176028480, 8265437395879406787,
   8276634748336579668, 8287847270069865227, 8299074981629383563, 8310317903593094432, 8321576056566834961, 8332849461184357413,
   8344138138107367007, 8355442108025559785, 8366761391656660532, 8378096009746460745, 8389445983068856661, 8400811332425887324,
   8412192078647772715, 8423588242592951930, 8434999845148121405, 8446426907228273202, 8457869449776733335, 8469327493765200162,
   8480801060193782815, 8492290170091039695, 8503794844514017006, 8515315104548287352, 8526850971307988384, 8538402465935861492,
   8549969609603290562, 8561552423510340771, 8573150928885797448, 8584765146987204981, 8596395099100905773, 8608040806542079262,
   8619702290654780981, 8631379572811981681, 8643072674415606501, 8654781616896574194, 8666506421714836405, 8678247110359417001,
   8690003704348451460, 8701776225229226304, 8713564694578218592, 8725369134001135468, 8737189565132953756, 8749026009637959614,
   8760878489209788238, 8772747025571463624, 8784631640475438381, 8796532355703633598, 8808449193067478767, 8820382174407951755,
   8832331321595618838, 8844296656530674782, 8856278201142982984, 8868275977392115661, 8880290007267394102, 8892320312787928965,
   8904366916002660636, 8916429838990399638, 8928509103859867100, 8940604732749735273, 8952716747828668109, 8964845171295361890,
   8976990025378585914, 8989151332337223232, 9001329114460311450, 9013523394067083576, 9025734193507008925, 9037961535159834084,
   9050205441435623930, 9062465934774802696, 9074743037648195108, 9087036772557067563, 9099347162033169373, 9111674228638774058,
   9124017994966720698, 9136378483640455343, 9148755717314072474, 9161149718672356526, 9173560510430823461, 9185988115335762405,
   9198432556164277330, 9210893855724328808, 9223372036854775808]

namespace UBig

/-- one round of the `for` loop (src/ubigint/funcs/exp.rs 23-36) -/
def expRound (f1 f2 : UBig) (frac : Nat) : M (UBig × UBig × Nat) := do
  let m ← mul f1 f2
  let mid ← sqrt m
  if frac > 4194304 then pure (mid, f2, (frac - 4194304) * 2)
  else pure (f1, mid, frac * 2)

/-- the `for` loop (src/ubigint/funcs/exp.rs 23-36), `k` rounds; `frac` is a `usize` below `2^24` -/
def expLoop : Nat → UBig → UBig → Nat → M (UBig × UBig × Nat)
  | 0, f1, f2, frac => pure (f1, f2, frac)
  | k + 1, f1, f2, frac => do
    let p ← expRound f1 f2 frac
    expLoop k p.1 p.2.1 p.2.2

/-- src/ubigint/funcs/exp.rs 12-38: the integer part, and `2^62` times the power of two of the fraction -/
def expParts (n : UBig) : M (UBig × UBig) := do
  let trunc := shift_right n 1
  let r ← sub n (shift_left trunc 1)
  let frac ← to_u64 r
  let frac ← unwrapR frac
  let f1 ← idx EXP_TABLE (frac / 8388608)
  let f2 ← idx EXP_TABLE (frac / 8388608 + 1)
  let p ← expLoop 5 (from_u64 f1) (from_u64 f2) (frac % 8388608)
  let d ← sub p.2.1 p.1
  let d ← mul_u32 d (p.2.2 % B32)
  let d ← div_u32 d 8388608
  let f ← add_mut p.1 d
  pure (trunc, f)

/-- src/ubigint/funcs/exp.rs 11-50 -/
def exp2_accurate (n : UBig) : M UBig := do
  let p ← expParts n
  let t ← to_u64 p.1
  let t ← unwrapR t
  let e ← exp2 t
  let m ← mul e p.2
  let result_pow_30 := shift_right m 1
  let result ← div_u32 result_pow_30 1073741824
  let r ← rem_pow2 result_pow_30 1073741824
  let r ← idx r 0
  if r > 536870912 then add_u32 result 1 else pure result

end UBig

namespace Ratio

/-- one of the two parts of the first approximation (src/ratio/funcs/root.rs 21-22) -/
def cbrtPart (a : BigI) (neg : Bool) : M BigI := do
  let l ← BigI.log2_accurate (BigI.shift_left a 1)
  let l ← BigI.div_i32 l 3
  let n ← unwrapR (BigI.to_ubi l)
  let m ← UBig.exp2_accurate n
  pure (BigI.from_ubi m neg)

/-- one round of Newton's method with the removal of digits (src/ratio/funcs/root.rs 29-39).  Lengths are `usize`s that do not overflow. -/
def cbrtRound (two_third x_third approx : Ratio) : M Ratio := do
  let len_pre := min approx.denom.mag.length approx.numer.mag.length
  let a ← mul approx two_third
  let b ← div x_third approx
  let b ← div b approx
  let approx ← add a b
  let len_post := min approx.denom.mag.length approx.numer.mag.length
  if len_pre + 4 < len_post then
    fit ⟨BigI.shift_right_mut approx.denom (len_post - len_pre - 4), BigI.shift_right_mut approx.numer (len_post - len_pre - 4)⟩
  else pure approx

/-- the `for` loop (src/ratio/funcs/root.rs 28-39), `k` rounds -/
def cbrtLoop (two_third x_third : Ratio) : Nat → Ratio → M Ratio
  | 0, a => pure a
  | k + 1, a => do
    let a ← cbrtRound two_third x_third a
    cbrtLoop two_third x_third k a

/-- src/ratio/funcs/root.rs 12-42 -/
def cbrt_iter (x : Ratio) (iter : Nat) : M Ratio :=
  if is_zero x then pure zero
  else do
    let d ← cbrtPart x.denom false
    let n ← cbrtPart x.numer (is_neg x)
    let approx ← from_denom_and_numer d n
    let x_third ← div_i32 x 3
    let two_third ← from_denom_and_numer_i32 3 2
    cbrtLoop two_third x_third iter approx

end Ratio
end Hmath
