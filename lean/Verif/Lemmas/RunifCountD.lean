import Verif.Lemmas.RunifCount

/-! # The first million uniform random numbers, part D -/

namespace Verif.RunifCount

set_option maxRecDepth 100000

theorem part0 : packed classWeight 16 0 =
    8364801205231840797435274044770348196447286 := by
  decide +kernel
theorem part1 : packed classWeight 16 65536 =
    11152451511853255117497446439777072880567111 := by
  decide +kernel
theorem part2 : packed classWeight 16 131072 =
    4183356982158254138335567779456935986742311 := by
  decide +kernel
theorem part3 : packed classWeight 16 196608 =
    15333681729215717449714150739527375175828461 := by
  decide +kernel
theorem part4 : packed classWeight 16 262144 =
    8364653660924308672982311000474540646089936 := by
  decide +kernel
theorem part5 : packed classWeight 16 327680 =
    6970915572046691582111359197688907883889636 := by
  decide +kernel

end Verif.RunifCount
