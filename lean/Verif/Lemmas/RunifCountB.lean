import Verif.Lemmas.RunifCount

/-! # The first million uniform random numbers, part B -/

namespace Verif.RunifCount

set_option maxRecDepth 100000

theorem chunk6 : packed bucketWeight 16 393216 =
    8806599400811665053422503826579497005160251988797939967990432711999488400082081832963201200974506743714251652656291633702501420666538071611644118545598721101208732358897574888822185868134461 := by
  decide +kernel
theorem chunk7 : packed bucketWeight 16 458752 =
    8876216474984852419980257115865839260768722350334774251825374251100907764165352582250702129748389655883510600696940280424593665326185892190103207903497540087885346142514292012234499789162511 := by
  decide +kernel
theorem chunk8 : packed bucketWeight 16 524288 =
    8998047368307155497823082902664732965819637982816122387501188727372468919785847111109588004560158131589330346205401147590126350301690130672462057944727793791286495594431505440834531947972636 := by
  decide +kernel
theorem chunk9 : packed bucketWeight 16 589824 =
    9080717283138909996699306245317267788159030033444174924068553977167372541289354139679311469614955677787155154138999332286911548204636247729074930396752765435593447779669168725749304088594436 := by
  decide +kernel
theorem chunk10 : packed bucketWeight 16 655360 =
    8767439746017279430548551352014694439806356312275959072375719455288382188727328216398074469115259107691500974761625581650629778398682620552606394689074543597249990496094645910848251308804111 := by
  decide +kernel
theorem chunk11 : packed bucketWeight 16 720896 =
    8871865367650896889994554644338961975990291771523575619881845417658431062487759905557747268644441325382910010149676240135045765468128761515675804013438449927093798160376009353826490707347386 := by
  decide +kernel

end Verif.RunifCount
