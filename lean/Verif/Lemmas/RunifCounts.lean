import Verif.Lemmas.RunifCountA
import Verif.Lemmas.RunifCountB
import Verif.Lemmas.RunifCountC
import Verif.Lemmas.RunifCountD
import Verif.Lemmas.RunifCountE
import Verif.Lemmas.RunifCountF

/-! # All counts of the first million uniform random numbers -/

namespace Verif.RunifCount

theorem total_buckets : total bucketWeight 1000000 =
    135836571572608301801548746014506473467849959811556123198179795942780131955939566725346800174155754058371242098485686053810438946955292706450802594768449602787926884011214537991217484317882800 := by
  have s0 : total bucketWeight 0 = 0 := rfl
  have s1 : total bucketWeight 65536 = 9063313509425471377389503441707473939822484532909655782570427285741957979974054444871649860502206290623752246120483167845292821960977016721773597059608927731272608159742510624532456262338536 := by rw [show 65536 = 0 + 2 ^ 16 from rfl, total_add, s0, chunk0]
  have s2 : total bucketWeight 131072 = 18435553465236213106919131628671909248924886287366532174155286068256947416238538367007406979840788530224745797032409325923631566802651633145235619924357138468792547876682056335917486713081772 := by rw [show 131072 = 65536 + 2 ^ 16 from rfl, total_add, s1, chunk1]
  have s3 : total bucketWeight 196608 = 27342227695710299894804388693902867189984307070870624758654890973219281268820951913389686192542462530400668456575315740323949710874049644301289287707620473355093741753236284763503628355901283 := by rw [show 196608 = 131072 + 2 ^ 16 from rfl, total_add, s2, chunk2]
  have s4 : total bucketWeight 262144 = 36114018250296789838611777420362441477064771331592228894908586925631413369694912702460795708719097392789477815438895743879131524928643202613524481297840547930590931591410842823045738256146269 := by rw [show 262144 = 196608 + 2 ^ 16 from rfl, total_add, s3, chunk3]
  have s5 : total bucketWeight 327680 = 44720467572682677471466550395137373411383843253363583709077352025403305353168947595972365571708105007357924349702239668578065551309293782335023181822983507287550660539968216654678050427905930 := by rw [show 327680 = 262144 + 2 ^ 16 from rfl, total_add, s4, chunk4]
  have s6 : total bucketWeight 393216 = 53400885657508362518710484193694154728555685011770376320753796796951394185891305178433320787608411446646668620021976054705784091955475988373519589977789262112849570754010228411678766633332616 := by rw [show 393216 = 327680 + 2 ^ 16 from rfl, total_add, s5, chunk5]
  have s7 : total bucketWeight 458752 = 62207485058320027572132988020273651733715937000568316288744229508950882585973387011396521988582918190360920272678267688408285512622014059985163708523387983214058303112907803300500952501467077 := by rw [show 458752 = 393216 + 2 ^ 16 from rfl, total_add, s6, chunk6]
  have s8 : total bucketWeight 524288 = 71083701533304879992113245136139490994484659350903090540569603760051790350138739593647224118331307846244430873375207968832879177948199952175266916426885523301943649255422095312735452290629588 := by rw [show 524288 = 458752 + 2 ^ 16 from rfl, total_add, s7, chunk7]
  have s9 : total bucketWeight 589824 = 80081748901612035489936328038804223960304297333719212928070792487424259269924586704756812122891465977833761219580609116423005528249890082847728974371613317093230144849853600753569984238602224 := by rw [show 589824 = 524288 + 2 ^ 16 from rfl, total_add, s8, chunk8]
  have s10 : total bucketWeight 655360 = 89162466184750945486635634284121491748463327367163387852139346464591631811213940844436123592506421655620916373719608448709917076454526330576803904768366082528823592629522769479319288327196660 := by rw [show 655360 = 589824 + 2 ^ 16 from rfl, total_add, s9, chunk9]
  have s11 : total bucketWeight 720896 = 97929905930768224917184185636136186188269683679439346924515065919880013999941269060834198061621680763312417348481234030360546854853208951129410299457440626126073583125617415390167539636000771 := by rw [show 720896 = 655360 + 2 ^ 16 from rfl, total_add, s10, chunk10]
  have s12 : total bucketWeight 786432 = 106801771298419121807178740280475148164259975450962922544396911337538445062429028966391945330266122088695327358630910270495592620321337712645086103470879076053167381285993424743994030343348157 := by rw [show 786432 = 720896 + 2 ^ 16 from rfl, total_add, s11, chunk11]
  have s13 : total bucketWeight 851968 = 115686690178949965526158005715741058668725551969377668439063621440573389088813447802034631402948788724852932428587724901994560312994041238730923833227064873191598124871563027552444895534802818 := by rw [show 851968 = 786432 + 2 ^ 16 from rfl, total_add, s12, chunk12]
  have s14 : total bucketWeight 917504 = 124410618677345186515633979722056960495819051870414878242259267219728268088888676019420243739282531940367608742573839408710685698233788039603416482753753891050715241721922341683036515965366154 := by rw [show 917504 = 851968 + 2 ^ 16 from rfl, total_add, s13, chunk13]
  have s15 : total bucketWeight 983040 = 133504389211944970103007703078456023092100502380712571305439569392415808568604124571283144732588080239776845807524389919563529124029456544843719009349229503752288004932004412430855609492993940 := by rw [show 983040 = 917504 + 2 ^ 16 from rfl, total_add, s14, chunk14]
  have s16 : total bucketWeight 999424 = 135727794449436615220710725340537023107183897956007079573914148694362554192000761558771727208818972809010658235745794650564550835511637723871170355775967572674150576479491513003746051033692574 := by rw [show 999424 = 983040 + 2 ^ 14 from rfl, total_add, s15, chunk15]
  have s17 : total bucketWeight 999936 = 135832220469423557129212045399140459351005673474138335191495428160514472934556779284965071551027889159814299701196245621888968088883290852291694091626533866357754034082743940951372626536724911 := by rw [show 999936 = 999424 + 2 ^ 9 from rfl, total_add, s16, chunk16]
  have s18 : total bucketWeight 1000000 = 135836571572608301801548746014506473467849959811556123198179795942780131955939566725346800174155754058371242098485686053810438946955292706450802594768449602787926884011214537991217484317882800 := by rw [show 1000000 = 999936 + 2 ^ 6 from rfl, total_add, s17, chunk17]
  exact s18

theorem total_classes : total classWeight 1000000 =
    121290442261829907376764500052474678989819800 := by
  have s0 : total classWeight 0 = 0 := rfl
  have s1 : total classWeight 65536 = 8364801205231840797435274044770348196447286 := by rw [show 65536 = 0 + 2 ^ 16 from rfl, total_add, s0, part0]
  have s2 : total classWeight 131072 = 19517252717085095914932720484547421077014397 := by rw [show 131072 = 65536 + 2 ^ 16 from rfl, total_add, s1, part1]
  have s3 : total classWeight 196608 = 23700609699243350053268288264004357063756708 := by rw [show 196608 = 131072 + 2 ^ 16 from rfl, total_add, s2, part2]
  have s4 : total classWeight 262144 = 39034291428459067502982439003531732239585169 := by rw [show 262144 = 196608 + 2 ^ 16 from rfl, total_add, s3, part3]
  have s5 : total classWeight 327680 = 47398945089383376175964750004006272885675105 := by rw [show 327680 = 262144 + 2 ^ 16 from rfl, total_add, s4, part4]
  have s6 : total classWeight 393216 = 54369860661430067758076109201695180769564741 := by rw [show 393216 = 327680 + 2 ^ 16 from rfl, total_add, s5, part5]
  have s7 : total classWeight 458752 = 59947050107652371977457790740147054421597427 := by rw [show 458752 = 393216 + 2 ^ 16 from rfl, total_add, s6, part6]
  have s8 : total classWeight 524288 = 71099379330527479563360583970797046491914563 := by rw [show 524288 = 458752 + 2 ^ 16 from rfl, total_add, s7, part7]
  have s9 : total classWeight 589824 = 76676562130609804899266378857345206620153124 := by rw [show 589824 = 524288 + 2 ^ 16 from rfl, total_add, s8, part8]
  have s10 : total classWeight 655360 = 86435197129132423944704406159396677541341410 := by rw [show 655360 = 589824 + 2 ^ 16 from rfl, total_add, s9, part9]
  have s11 : total classWeight 720896 = 92012309480133507998194352771616688199363921 := by rw [show 720896 = 655360 + 2 ^ 16 from rfl, total_add, s10, part10]
  have s12 : total classWeight 786432 = 101770883334168320924204042483166194806501407 := by rw [show 786432 = 720896 + 2 ^ 16 from rfl, total_add, s11, part11]
  have s13 : total classWeight 851968 = 105954265571659762602362909577838829931557893 := by rw [show 851968 = 786432 + 2 ^ 16 from rfl, total_add, s12, part12]
  have s14 : total classWeight 917504 = 114318905940305381120308045816950325807135004 := by rw [show 917504 = 851968 + 2 ^ 16 from rfl, total_add, s13, part13]
  have s15 : total classWeight 983040 = 119896127288002119505467500384182673433951615 := by rw [show 983040 = 917504 + 2 ^ 16 from rfl, total_add, s14, part14]
  have s16 : total classWeight 999424 = 121290415677269991672402412877834816486379274 := by rw [show 999424 = 983040 + 2 ^ 14 from rfl, total_add, s15, part15]
  have s17 : total classWeight 999936 = 121290442261829907375555574232813870323601286 := by rw [show 999936 = 999424 + 2 ^ 9 from rfl, total_add, s16, part16]
  have s18 : total classWeight 1000000 = 121290442261829907376764500052474678989819800 := by rw [show 1000000 = 999936 + 2 ^ 6 from rfl, total_add, s17, part17]
  exact s18

/-- Bits 49 to 53. -/
def bucketOf (z : ℕ) : ℕ := z >>> 49 % 32

/-- The bucket of sample `i`. -/
def bucket (i : ℕ) : ℕ := bucketOf (splitmixNat i)

theorem bucketOf_lt (z : ℕ) : bucketOf z < 32 := Nat.mod_lt _ (by norm_num)

/-- How many of the first million samples fall into each of the 32 buckets. -/
def runifCounts : List ℕ := [31152, 31319, 31517, 31527, 31123, 31075, 31161, 31353, 31046, 31036, 31280, 31412, 31207, 31596, 31094, 31281, 31209, 31178, 31116, 31228, 31267, 31193, 31284, 31539, 31114, 31261, 31392, 31155, 31290, 31296, 31080, 31219]

theorem count_million (k : ℕ) (hk : k < 32) : ((Finset.range 1000000).filter fun i => bucket i = k).card = runifCounts.getD k 0 := by
  unfold bucket
  rw [count_eq (f := bucketWeight) (b := bucketOf) (fun _ => rfl) bucketOf_lt _ _ (by norm_num) hk, total_buckets]
  revert k
  decide +kernel

/-- Which of eight intervals bits 2 to 53 fall into. -/
def classOf (z : ℕ) : ℕ :=
  let n := z >>> 2 % 2 ^ 52
  if n < 4366675963692260 then (if n < 1389687973952879 then (if n < 1197738769616387 then 0 else 1) else if n < 4366289103710549 then 2 else 7)
  else if n < 4401119562529587 then (if n < 4366744418543506 then 3 else 4)
  else if n < 4401174506554929 then 5 else 6

theorem classOf_lt (z : ℕ) : classOf z < 8 := by unfold classOf; simp only []; split_ifs <;> norm_num

theorem boolRec_ble (a b x y : ℕ) : (Bool.rec x y (Nat.ble (Nat.succ a) b) : ℕ) = if a < b then y else x := by
  by_cases h : a < b
  · rw [if_pos h, Nat.ble_eq_true_of_le h]
  · rw [if_neg h]
    have : Nat.ble (Nat.succ a) b = false := by
      rw [Bool.eq_false_iff]; intro hc; exact h (Nat.le_of_ble_eq_true hc)
    rw [this]

theorem classWeight_eq (z : ℕ) : classWeight z = 1048576 ^ classOf z := by
  unfold classWeight classOf
  rw [force_eq]
  simp only [boolRec_ble]
  have e : Nat.mod (Nat.shiftRight z 2) 4503599627370496 = z >>> 2 % 2 ^ 52 := rfl
  rw [e]
  generalize z >>> 2 % 2 ^ 52 = n
  split_ifs <;> norm_num

/-- How many of the first million samples fall into each of the eight intervals. -/
def classCounts : List ℕ := [266136, 42203, 661207, 12, 7668, 12, 22675, 87]

theorem class_million (k : ℕ) (hk : k < 8) : ((Finset.range 1000000).filter fun i => classOf (splitmixNat i) = k).card = classCounts.getD k 0 := by
  rw [count_eq (f := classWeight) classWeight_eq classOf_lt _ _ (by norm_num) hk, total_classes]
  revert k
  decide +kernel

end Verif.RunifCount
