import Verif.Lemmas.RunifCount

/-! # The first million uniform random numbers, part A -/

namespace Verif.RunifCount

set_option maxRecDepth 100000

theorem chunk0 : packed bucketWeight 16 0 =
    9063313509425471377389503441707473939822484532909655782570427285741957979974054444871649860502206290623752246120483167845292821960977016721773597059608927731272608159742510624532456262338536 := by
  decide +kernel
theorem chunk1 : packed bucketWeight 16 65536 =
    9372239955810741729529628186964435309102401754456876391584858782514989436264483922135757119338582239600993550911926158078338744841674616423462022864748210737519939716939545711385030450743236 := by
  decide +kernel
theorem chunk2 : packed bucketWeight 16 131072 =
    8906674230474086787885257065230957941059420783504092584499604904962333852582413546382279212701674000175922659542906414400318144071398011156053667783263334886301193876554228427586141642819511 := by
  decide +kernel
theorem chunk3 : packed bucketWeight 16 196608 =
    8771790554586489943807388726459574287080464260721604136253695952412132100873960789071109516176634862388809358863580003555181814054593558312235193590220074575497189838174558059542109900244986 := by
  decide +kernel
theorem chunk4 : packed bucketWeight 16 262144 =
    8606449322385887632854772974774931934319071921771354814168765099771891983474034893511569862989007614568446534263343924698934026380650579721498700525142959356959728948557373831632312171759661 := by
  decide +kernel
theorem chunk5 : packed bucketWeight 16 327680 =
    8680418084825685047243933798556781317171841758406792611676444771548088832722357582460955215900306439288744270319736386127718540646182206038496408154805754825298910214042011757000716205426686 := by
  decide +kernel

end Verif.RunifCount
