import Verif.Lemmas.RunifCount

/-! # The first million uniform random numbers, part C -/

namespace Verif.RunifCount

set_option maxRecDepth 100000

theorem chunk12 : packed bucketWeight 16 786432 =
    8884918880530843718979265435265910504465576518414745894666710103034944026384418835642686072682666636157605069956814631498967692672703526085837729756185797138430743585569602808450865191454661 := by
  decide +kernel
theorem chunk13 : packed bucketWeight 16 851968 =
    8723928498395220989475974006315901827093499901037209803195645779154879000075228217385612336333743215514676313986114506716125385239746800872492649526689017859117116850359314130591620430563336 := by
  decide +kernel
theorem chunk14 : packed bucketWeight 16 917504 =
    9093770534599783587373723356399062596281450510297693063180302172687540479715448551862900993305548299409237064950550510852843425795668505240302526595475612701572763210082070747819093527627786 := by
  decide +kernel
theorem chunk15 : packed bucketWeight 14 983040 =
    2223405237491645117703022262081000015083395575294508268474579301946745623396636987488582476230892569233812428221404731001021711482181179027451346426738068921862571547487100572890441540698634 := by
  decide +kernel
theorem chunk16 : packed bucketWeight 9 999424 =
    104426019986941908501320058603436243821775518131255617581279466151918742556017726193344342208916350803641465450450971324417253371653128420523735850566293683603457603252427947626575503032337 := by
  decide +kernel
theorem chunk17 : packed bucketWeight 6 999936 =
    4351103184744672336700615366014116844286337417788006684367782265659021382787440381728623127864898556942397289440431921470858072001854159108503141915736430172849928470597039844857781157889 := by
  decide +kernel

end Verif.RunifCount
