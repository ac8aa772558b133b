import Verif.Lemmas.RunifCount

/-! # The first million uniform random numbers, part E -/

namespace Verif.RunifCount

set_option maxRecDepth 100000

theorem part6 : packed classWeight 16 393216 =
    5577189446222304219381681538451873652032686 := by
  decide +kernel
theorem part7 : packed classWeight 16 458752 =
    11152329222875107585902793230649992070317136 := by
  decide +kernel
theorem part8 : packed classWeight 16 524288 =
    5577182800082325335905794886548160128238561 := by
  decide +kernel
theorem part9 : packed classWeight 16 589824 =
    9758634998522619045438027302051470921188286 := by
  decide +kernel
theorem part10 : packed classWeight 16 655360 =
    5577112351001084053489946612220010658022511 := by
  decide +kernel
theorem part11 : packed classWeight 16 720896 =
    9758573854034812926009689711549506607137486 := by
  decide +kernel

end Verif.RunifCount
