import Verif.Lemmas.RunifCount

/-! # The first million uniform random numbers, part F -/

namespace Verif.RunifCount

set_option maxRecDepth 100000

theorem part12 : packed classWeight 16 786432 =
    4183382237491441678158867094672635125056486 := by
  decide +kernel
theorem part13 : packed classWeight 16 851968 =
    8364640368645618517945136239111495875577111 := by
  decide +kernel
theorem part14 : packed classWeight 16 917504 =
    5577221347696738385159454567232347626816611 := by
  decide +kernel
theorem part15 : packed classWeight 14 983040 =
    1394288389267872166934912493652143052427659 := by
  decide +kernel
theorem part16 : packed classWeight 9 999424 =
    26584559915703153161354979053837222012 := by
  decide +kernel
theorem part17 : packed classWeight 6 999936 =
    1208925819660808666218514 := by
  decide +kernel

end Verif.RunifCount
