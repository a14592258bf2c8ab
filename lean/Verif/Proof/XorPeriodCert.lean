import Verif.Proof.KronPow
import Verif.Proof.FermatPrimes

/-! Certificates for the order of the maps of Xoshiro512 and Xorshift1024. The numbers come from tools/xor_period.py. -/

namespace Verif.Linear
open Verif.GF2 Verif.Prime

/-- The quotient of `x^1024` by `xosh512Poly`. -/
def xosh512Mu : Nat :=
  0x10000500044d8b22f9a3520a35a819a8d8ca188e5909bf4a3730d0b727ddf2fd0db1800ed12b6da5bf81252241d6275ec585456dff6dbd103eb7ff93e81c990bd

/-- The prime factors `q` of `2^512 - 1`, with `x^((2^512 - 1)/q)` modulo the polynomial, and the inverse of that minus 1. -/
def xosh512Ord : List (Nat × Nat × Nat) :=
  [(3, 0xeab77d09243e32aa4ebb0ea42ccd0f7c7d04b420bd80af5aebd8ba9693596ff22d4c1eb22c6e93fd1d55f25b55014228ebd27427bbcab0850f53ccaff2e83f65,
    0xeab77d09243e32aa4ebb0ea42ccd0f7c7d04b420bd80af5aebd8ba9693596ff22d4c1eb22c6e93fd1d55f25b55014228ebd27427bbcab0850f53ccaff2e83f65),
   (5, 0x8b432a3369fb40f03cc0796526a0567a888f0413fb3e0a9d88205da5fbe7461a40b949d81e792f6c64d3664c9562441f5759d0bb9db5c06191a05cbc56532d32,
    0x86405eeed48eeee730cb3b84f426327f2411fbe20929f51dca24c3413512de258ae1578066129571b076d58b4d008cce97cb0df7ad9ddb3ed33a74083986c4e8),
   (17, 0xb36e00bd7fac79d0383419a997bf1d32e533395b8f2db79d6f076bd64711678cba9304e9f6718ff327a896f8f81476f37d9814abe523ebfc38cbef5988946dc4,
    0xf0f7d190f1886fa563015dd750063b505702b37b6a70356f136c5b63dd335da26d988885ff153e12ebbd18dec81e9fc1bb9a1119b166a82e00ef6372880c572),
   (257, 0x80f6af4863a23bc897b72761f58d89db40e347b42611ebd6eeb26dfa8626d2b0da4dab387b7803ab3dd71e74da453557fbe6b8dd54ffded5c34920b57518d150,
    0x7ee9f5c378ee364248f9f0db666f1af23ceac94a658081d9de7dfdde195fc6121fb4844ea01851f32f9cdef6f6992d7af4ad7e11bc666b1eb57844648e6033a4),
   (65537, 0x70b4e6b3991187c4819046dde242364e8697d5258ee80b04e9788b97d7d9274acae0aad864bfd07dcdb45e0675592dae29816a894a6d5ae5b97d5ef24d1adc0a,
    0x854c943acd8587903b9133eb22200051743934e55e67efc8a2866aea4c0f0dd25da5a71064f4d8692c2d7f846964b3a75e7ac8f06d02572b45fab5c40ac526e9),
   (641, 0x3f11e5554f7d11d9e422f32a35f8c8c5ecc507b7a900a7bc37f1421ca73d020820f2db28669fd54c79d9ab0126a8b49e4167bd27a090b94df8220975194d3ed5,
    0x10be4c8950f0b1a74352c247e3e941e46ed58a51498a07de9cf5dac219e7e33cff7b7cd2af8c57fab239b61381930685c9ed5da3e9d8130c22631de7f894d1bb),
   (6700417, 0xbf89549bfab98a37114d83ad04e9fb57f47bb5f4e911c4a507efdc6074652d176aba8621e7e1d0fd1e5e0c4affd802f3fd29f0a6dfb5c5407d1bb929c371767a,
    0x4f35060f7554687f6e42f445131368c2b0a631c958e54110449dd7b41a70c7c79040b2d08cc081fad7b6efba6e2a9bccb47453ea872c09556a6f07704308c3df),
   (274177, 0x6c1d7c630f05f71ad0f6d5d355a511191c2e717dd36ae7cb4a51ab4923e955b9f7bef979e2e0771253ab48058e43fd3b3bc706cd5f4c15137f6e2515f67e9aae,
    0x55a63add2b132d6f3a37c8c5885a6dbe4405e39629560ae65cf0ff0e51019b388cdbff693a6b7a4e8f6d0a274eca148eaced458919c5faa5615e7c15794159c8),
   (67280421310721, 0xab7af8db17341b808892a5006e6bb7ff5b8ec436115dd8bcd135920b1f5f6fb2a9ec35234dc9c5efacb11561485f3c4d984c35ebb2950969cbe7d256d80a6346,
    0x4b346a608bbd501e294174e57b9c83efd26d937fc3f3c88a5d9023c65eae30e0c5a0de4bf275e7b2d99a3723a4255048542eca26baaec9d938b23aa7aa369cab),
   (59649589127497217, 0xcffa6b7163554603aef53dc62c2edd5e7fd77106477bdd43607183b238aa1f87e7f178cf449594f7c0cc419efc5b51aa36cbeb725a17b5b598b70f00338f9f6,
    0x5a0fdeb85924fd54b34d91fbe2e7d9411a511ba86c97aad057a949fa37849062bc761effa06cce38f88968b47c7f3692923d3eac5881b6e3d0bf754e189eb960),
   (5704689200685129054721, 0x5690975003fac7f567287d5058b5d081645338e03f08eeeb6c590e7f631b8176498158e9f59b96eadf2b10dbdfb8cc418e1d00fc6e0b27bf0f4cfce84043b83f,
    0x6c3e89c60de0e2cd3cffabb7ec285c013ab09bd1e6ee69fc4770fb8d3ede72daf006c82dc975bb714dcfcdf4d2e07f74c65c12318c0a3b1d2fbac382701eaa46),
   (1238926361552897, 0x686233d9945ff6ae9dade0ff2319e9280b039ae1fdbd541842cd70fc07d8abd6809c6603d705420a816fc3606ac343b44a43e488f38e57b789a974de4495d08b,
    0x3989b3603665426ab3eecc5f1a9357c5ee74cf44d3019f8df40c4acffe651324ab4f420bcb42c3c6c8b24ee3c31520cf87187233da2ebd8904976b0c34cb2360),
   (93461639715357977769163558199606896584051237541638188580280321, 0xf22a3a45ca760065213c58bd428502a52649a4ac7c717e5410ac9b98c37dccf48e38f2b070f88f5a85cd5678163294719b90d2640bbb19cc3fad15a7f95ab7e,
    0x92794aa0294c66d2d81b0d80b681418e7c20a7f012cbb2bef564f6a6ef74a461a193b668452fad8b3eab302bf7096fbd0bbb02327755d58060d0e8c850f83052)]

theorem xosh512Ord_3 : ordCheck xosh512Poly xosh512Mu 32 512 3 0xeab77d09243e32aa4ebb0ea42ccd0f7c7d04b420bd80af5aebd8ba9693596ff22d4c1eb22c6e93fd1d55f25b55014228ebd27427bbcab0850f53ccaff2e83f65
    0xeab77d09243e32aa4ebb0ea42ccd0f7c7d04b420bd80af5aebd8ba9693596ff22d4c1eb22c6e93fd1d55f25b55014228ebd27427bbcab0850f53ccaff2e83f65 = true := by decide +kernel

theorem xosh512Ord_5 : ordCheck xosh512Poly xosh512Mu 32 512 5 0x8b432a3369fb40f03cc0796526a0567a888f0413fb3e0a9d88205da5fbe7461a40b949d81e792f6c64d3664c9562441f5759d0bb9db5c06191a05cbc56532d32
    0x86405eeed48eeee730cb3b84f426327f2411fbe20929f51dca24c3413512de258ae1578066129571b076d58b4d008cce97cb0df7ad9ddb3ed33a74083986c4e8 = true := by decide +kernel

theorem xosh512Ord_17 : ordCheck xosh512Poly xosh512Mu 32 512 17 0xb36e00bd7fac79d0383419a997bf1d32e533395b8f2db79d6f076bd64711678cba9304e9f6718ff327a896f8f81476f37d9814abe523ebfc38cbef5988946dc4
    0xf0f7d190f1886fa563015dd750063b505702b37b6a70356f136c5b63dd335da26d988885ff153e12ebbd18dec81e9fc1bb9a1119b166a82e00ef6372880c572 = true := by decide +kernel

theorem xosh512Ord_257 : ordCheck xosh512Poly xosh512Mu 32 512 257 0x80f6af4863a23bc897b72761f58d89db40e347b42611ebd6eeb26dfa8626d2b0da4dab387b7803ab3dd71e74da453557fbe6b8dd54ffded5c34920b57518d150
    0x7ee9f5c378ee364248f9f0db666f1af23ceac94a658081d9de7dfdde195fc6121fb4844ea01851f32f9cdef6f6992d7af4ad7e11bc666b1eb57844648e6033a4 = true := by decide +kernel

theorem xosh512Ord_65537 : ordCheck xosh512Poly xosh512Mu 32 512 65537 0x70b4e6b3991187c4819046dde242364e8697d5258ee80b04e9788b97d7d9274acae0aad864bfd07dcdb45e0675592dae29816a894a6d5ae5b97d5ef24d1adc0a
    0x854c943acd8587903b9133eb22200051743934e55e67efc8a2866aea4c0f0dd25da5a71064f4d8692c2d7f846964b3a75e7ac8f06d02572b45fab5c40ac526e9 = true := by decide +kernel

theorem xosh512Ord_641 : ordCheck xosh512Poly xosh512Mu 32 512 641 0x3f11e5554f7d11d9e422f32a35f8c8c5ecc507b7a900a7bc37f1421ca73d020820f2db28669fd54c79d9ab0126a8b49e4167bd27a090b94df8220975194d3ed5
    0x10be4c8950f0b1a74352c247e3e941e46ed58a51498a07de9cf5dac219e7e33cff7b7cd2af8c57fab239b61381930685c9ed5da3e9d8130c22631de7f894d1bb = true := by decide +kernel

theorem xosh512Ord_6700417 : ordCheck xosh512Poly xosh512Mu 32 512 6700417 0xbf89549bfab98a37114d83ad04e9fb57f47bb5f4e911c4a507efdc6074652d176aba8621e7e1d0fd1e5e0c4affd802f3fd29f0a6dfb5c5407d1bb929c371767a
    0x4f35060f7554687f6e42f445131368c2b0a631c958e54110449dd7b41a70c7c79040b2d08cc081fad7b6efba6e2a9bccb47453ea872c09556a6f07704308c3df = true := by decide +kernel

theorem xosh512Ord_274177 : ordCheck xosh512Poly xosh512Mu 32 512 274177 0x6c1d7c630f05f71ad0f6d5d355a511191c2e717dd36ae7cb4a51ab4923e955b9f7bef979e2e0771253ab48058e43fd3b3bc706cd5f4c15137f6e2515f67e9aae
    0x55a63add2b132d6f3a37c8c5885a6dbe4405e39629560ae65cf0ff0e51019b388cdbff693a6b7a4e8f6d0a274eca148eaced458919c5faa5615e7c15794159c8 = true := by decide +kernel

theorem xosh512Ord_67280421310721 : ordCheck xosh512Poly xosh512Mu 32 512 67280421310721 0xab7af8db17341b808892a5006e6bb7ff5b8ec436115dd8bcd135920b1f5f6fb2a9ec35234dc9c5efacb11561485f3c4d984c35ebb2950969cbe7d256d80a6346
    0x4b346a608bbd501e294174e57b9c83efd26d937fc3f3c88a5d9023c65eae30e0c5a0de4bf275e7b2d99a3723a4255048542eca26baaec9d938b23aa7aa369cab = true := by decide +kernel

theorem xosh512Ord_59649589127497217 : ordCheck xosh512Poly xosh512Mu 32 512 59649589127497217 0xcffa6b7163554603aef53dc62c2edd5e7fd77106477bdd43607183b238aa1f87e7f178cf449594f7c0cc419efc5b51aa36cbeb725a17b5b598b70f00338f9f6
    0x5a0fdeb85924fd54b34d91fbe2e7d9411a511ba86c97aad057a949fa37849062bc761effa06cce38f88968b47c7f3692923d3eac5881b6e3d0bf754e189eb960 = true := by decide +kernel

theorem xosh512Ord_5704689200685129054721 : ordCheck xosh512Poly xosh512Mu 32 512 5704689200685129054721 0x5690975003fac7f567287d5058b5d081645338e03f08eeeb6c590e7f631b8176498158e9f59b96eadf2b10dbdfb8cc418e1d00fc6e0b27bf0f4cfce84043b83f
    0x6c3e89c60de0e2cd3cffabb7ec285c013ab09bd1e6ee69fc4770fb8d3ede72daf006c82dc975bb714dcfcdf4d2e07f74c65c12318c0a3b1d2fbac382701eaa46 = true := by decide +kernel

theorem xosh512Ord_1238926361552897 : ordCheck xosh512Poly xosh512Mu 32 512 1238926361552897 0x686233d9945ff6ae9dade0ff2319e9280b039ae1fdbd541842cd70fc07d8abd6809c6603d705420a816fc3606ac343b44a43e488f38e57b789a974de4495d08b
    0x3989b3603665426ab3eecc5f1a9357c5ee74cf44d3019f8df40c4acffe651324ab4f420bcb42c3c6c8b24ee3c31520cf87187233da2ebd8904976b0c34cb2360 = true := by decide +kernel

theorem xosh512Ord_93461639715357977769163558199606896584051237541638188580280321 : ordCheck xosh512Poly xosh512Mu 32 512 93461639715357977769163558199606896584051237541638188580280321 0xf22a3a45ca760065213c58bd428502a52649a4ac7c717e5410ac9b98c37dccf48e38f2b070f88f5a85cd5678163294719b90d2640bbb19cc3fad15a7f95ab7e
    0x92794aa0294c66d2d81b0d80b681418e7c20a7f012cbb2bef564f6a6ef74a461a193b668452fad8b3eab302bf7096fbd0bbb02327755d58060d0e8c850f83052 = true := by decide +kernel

theorem xosh512Sq_check : sqCheck xosh512Poly xosh512Mu 512 9 2 2 = true := by decide +kernel

theorem xosh512Ord_prod : (xosh512Ord.map Prod.fst).prod = 2 ^ 512 - 1 := by decide +kernel

theorem xosh512Ord_prime : ∀ c ∈ xosh512Ord, c.1.Prime := by
  simp only [xosh512Ord, List.forall_mem_cons]
  exact ⟨prime_3, prime_5, prime_17, prime_257, prime_65537, prime_641, prime_6700417, prime_274177, prime_67280421310721, prime_59649589127497217, prime_5704689200685129054721, prime_1238926361552897, prime_93461639715357977769163558199606896584051237541638188580280321, by simp⟩

theorem xosh512Ord_check : ∀ c ∈ xosh512Ord, ordCheck xosh512Poly xosh512Mu 32 512 c.1 c.2.1 c.2.2 = true := by
  simp only [xosh512Ord, List.forall_mem_cons]
  exact ⟨xosh512Ord_3, xosh512Ord_5, xosh512Ord_17, xosh512Ord_257, xosh512Ord_65537, xosh512Ord_641, xosh512Ord_6700417, xosh512Ord_274177, xosh512Ord_67280421310721, xosh512Ord_59649589127497217, xosh512Ord_5704689200685129054721, xosh512Ord_1238926361552897, xosh512Ord_93461639715357977769163558199606896584051237541638188580280321, by simp⟩

/-- The quotient of `x^2048` by `xors1024Poly`. -/
def xors1024Mu : Nat :=
  0x10000000000007879787878787878000111001100050005512c7804701874d02131037bcc050f5f4786d2aeb2f433a713d4c572ad55909cbd534f09d864e36bcb430a9a70e6759b1f6ba43af98ed8308c8fda20e898c26b2b5a71c15b48416cebca4358a8308dc90455083300ed26a70ebfcce33722b8e190b45194e4a7dd96a6

/-- The prime factors `q` of `2^1024 - 1`, with `x^((2^1024 - 1)/q)` modulo the polynomial, and the inverse of that minus 1. -/
def xors1024Ord : List (Nat × Nat × Nat) :=
  [(3, 0x32931475fb5446e7e38d9158d94d1d00b61fbd22c3fc16ed21467fa22367f9f73ac94ef45b4fb7703febddef41686af4f9a1266acd1cf80ce353935cf3ef65f1565e39a91cadd6285325661552f02525bc180661a75869bd1e50eac6934752f994da676a86345b20ae793e8ecbba7460b5122e7d46e917cef5bd7d59998441a8,
    0x32931475fb5446e7e38d9158d94d1d00b61fbd22c3fc16ed21467fa22367f9f73ac94ef45b4fb7703febddef41686af4f9a1266acd1cf80ce353935cf3ef65f1565e39a91cadd6285325661552f02525bc180661a75869bd1e50eac6934752f994da676a86345b20ae793e8ecbba7460b5122e7d46e917cef5bd7d59998441a8),
   (5, 0xab8c470f886ccde32bcafb58ba2d8602fd79172ab1dacfa094cebb81de3e84a779d0ac6e99d9a695857d2c4fd82cc35a17a914b870dc0b10fd26a0a8db7a07fba0f25ccf98f96c2502d93b7886c530f67ecfe9bcee61be5a55b888fbf1e099f735b38dae660ca810dd99bb83240ffe17da3231c0b28100f3d0e4196e68be1570,
    0x4d99ca06428ea54222b809c4b2f91306614c2038c7d306c1faec0637a8bdd82c01a1bab8376322bbe90062546c6c7eb19fb50e15196b2850e3e41982c5b4abfc2629ce52729f2fd9143584390ad6a410a9b8bbe3044638231d6dacd93110d170336b6274d923278c0024c9d4209a76a60b55da9794cb02dc9be8ebb7c725486f),
   (17, 0x4733b43baeb2d73e7a33e1c8ca38a3ee7d3968c2bc9b97474d535b4c920e2168ffb2c7c19fd1624045442160317d2544d1aed627e721bded46168af1dbfa67ce37608efda6a8a077052153a2147b0e014eb7c0e23b478f061343ae304f1ca06002a4f9fa704bd97a7e49391faa967b172a22107d46f40205c700dab885a0e396,
    0xebab72dcedc0b464e55fd4ae071e5990e738740fd661509ae0134242527735a4cebc09340af8b9613227c18e56f4094a59184855119396a37fb7bf7dbc5b952a78fdbbe8ef3cf2d9fe970138d3e79a4e9dc5977d5b267dbcfced60bea1fe4a3569a3dcfeb251421fc69caa67909d698a04f485d805a09c3c985240dc62107791),
   (257, 0x3743a9f2be722825b758661a655f293303d5d5837a8b6503482219458b58297d9fa0d52fca4381e6987bdd586332d20583ba27a7cce3cb84f1d2eccacbab67c8cc0100e77983c0c9c118e2042cccb78869cc1e3062e7080c4af5c0a220d5f44ed269d8afa50ebef90c8ca87e7d5240bdc3ffb16ddc449f1aa53e7a1ec175b591,
    0x974e4d2d6f9b85b567a1a6097f6aac6eabd023ead31e6c99119c33290ce62c8a2742087a54914c6c9d9f82438ca606a622ff95e5451b57752885a41e79da35b578b9355cb8abb8b7d8e853f264b776ac35a3b5707cf4d1589f4161e726e1678581debee4b4b2cee8391fccdacd3dd5d8df41c17d83b37b0552071ce4f44713),
   (65537, 0x3e6f1bbc46298e66025be07a9f4ad2fc47fbc87228d08cc43e0695a69ca7e89538eabd41998505e29e16ccb397b4382f29532851482dbbbc26302af590477ab729228d5792da434f1235885b1e415829defcb78085512a0eafd93e79e21f8038daab2292534346e68c69a67831cbed87b301da27f542a04823d200439101b3ec,
    0x85825dcc5b1a1734eee438d3523c6e27ade84a4b602745747b37224bc18d7800f9ec0f2c8879774ab4333ba4297b858f903eb0ccff22ba281f969b1328dbb0ce20ac0bcb731411b161262f8521eed7d45916dc3b8ef7c7ac6435fb57b0c2b995df923065cba239630ec2c0feca4f0a82d4140ea19d7413bf8323a8467450f2e),
   (641, 0x3189e17027184a2748bc54687a6b159d020b1f19839c6fbf9c786a3276be4cdb5060be0a1bde9f03444985a95fb49432f3cc853c06a4cbcf70fa887aa25cf9088add50ab83d6991932459ea05cdb147e8a03dcf2113237b5f7aa3f1bfcac0bab2f87879a323e9ce1b6142bcbe93c5b0ba7a6e6943bd394cdfca658c0e41d9fe2,
    0x8cb8eab30610311da5b2b8c03f6429d21889bb4d10112321391854445d0eb69fa2fa55903ff7bb97b5c5f1d14a8e2339b7104fb93a79355c658e1db4ee301e289a9d23663d5542a6445aefbbb67c1e34a2735b5676edc7b3f07b39410364d8036b7ee30d6692077c546df54e02e4026dd96bd6f97f3eb04ce97f7733c87b41d2),
   (6700417, 0xe6a49d3c5e9e77aadc8383aff9377f7bb81187af70b1a3aa3a303f84380edd776d2f6df3d36e9f871d70a096c9209ceb371bda9a2b4368ef701c1bcd0caf350647029409d32b620d15e4fd43751fcea4788c8cf3b7c2b35b514fe33830611b162bf174610d191840eb05996f2f0a09ae687b2b2446d0836007e8d438254a867d,
    0x3446daa860e5a5c567f659b4523e73f524ce9edb0383e3ce81779cf60e52b159bb9a0491b259027a8acf97b34efe28543519fad8b329499f43f8cd838e2f1c21c2c7a9c8f2a7cfcd6d742e36dfc599d1ed10f9b1ddbceb944336224ba8418c5b5fc5cae5c9f52088e63385da2985e5e5d93ddd67ec138fd167b8e941b65bbc82),
   (274177, 0xa5cef5db95c630f19646e2deba6ea3a05b99f8e89d6e27f0f4b4aa361f6ae03e5908b657e3500190b7faac4f6f925a78450a8ad90d63627eb3a486eae94e6549736f33c6d1b9a41e6bdaeb20228f4c8de7bfc9f9fad7c644a20ba0190420694431d02cffa19fae5d3ee97f65c23ea38ea29884fccef06b13a0b2083687318af,
    0x26d8bec01059e2e899b6ab955afb154110f5304f7f72499208f04cf35df5e91627f36cf06a36ec669eee17bdced2f6a7a4bb3dcae9df0f5a3c54b1726aeaaf5fbcf60269dc2fb4ae3054a734b73c96fbf1344b41f57c46ef5fe119a8586d518ce9774d223717304610c4521c182a05bd485abb2e4b7ad66c493619dfabe4ce01),
   (67280421310721, 0x8af1e072a2b2c79aa05ca39eaab5a217dfc8d65d28702b36e711f10833c44585fbe4204c7f4cadb32a8bc286a6679818a3e344801f5527ec7ddea388dacbd7f87bb3f8a05f7301773e2f2783e6db33214ba1629871e5600984a887e53db2fedcc43d5d2dc842fc5a97766e9a6f92e5645a250ec45b57b0623d35373a6f1fff24,
    0xd0b87bbdf72f72b49f9aefa875d1600189c3362dd2b50a6e14195c966215a546003e5780c33a0c258c10cc443c50e01829f034d321e3327aa7adac1996bee5ba0e5e6cfab17e722babc2745b0e8141ad0b68445e965aa9e26c75a8d332f773947a9cf0ba9c1958ae149bb7c8bd4ff4b81ef64db0858e884c7a7eae1053268789),
   (59649589127497217, 0x2249d73cac1225735a1648b703dc36fdbeb18ae9039b6dae9493001dc18e292524e3d7b8dfd19fd3a3d93f22b8c7f3cbb753cde8cad3668c7e910461e76386470268643d23051f7ead3a07c9c18339492a877d79c2b929a2363f9484325cafa53bcaa72a9010876a32374168ac3f9becd367d0dcbc580680b9160ce24ed9715f,
    0xc0181703ae364f640524ef2364c3d51655860da9e4123f0b36258dafb761b2af05c46a501ca5839252238b7c0afefdb20de840187fa29c032fd3409f237ded1162476ade37b3d5f6b65daeeb20478ddbc95dc1ce4d01f0285ba4e422eadbde9bb969b21d347282b792a8572093e642d6e05e6c0b08e41c7aea5d89e606a40951),
   (5704689200685129054721, 0x9c1fac7f17cdee861e9995f077c9134930d7b74908dfd2d129e9183ebda2f430a32f8224e8afdca9ab26619e274ff8c3d6e15b221e529f36967546fbf1bea2b428b4bf4a68c7450a0e53ff701e82ac90e7f2b23d263a8fae9d6a22bae4e938b10206f2bb09689b6744723c4cc49f28d44826b3077a30e7d46c868e571003272f,
    0xdacb78119ea53996b1182dffab2aff68ac973ddffbc6907ee7962e330f77c33f61c83ea3606bade0bed1fa7f072134624a63e3e25a62651452450f4effc25036bf82f6616c6f819ab92cd36fe8e99067a06717da79bdff3e26e2b80cf9f368af96f1c83c306902913508242b536dd1208910d1fe71070b7b913336d17ad149ac),
   (1238926361552897, 0xd8360311d7a0334f44f575b096669bc9eb370c025855fd01297039fd03d93493c6fe95be5d31cb51f8b121a8628a9246a7acdb49693fba73331a081d7b3fe78d3b70a02bca62116cd34a8747c3f33e23ffed15284a450cbdd3555f2e7384d737a3cce3748e89d06e0bbdefe1b5a821a49b2b6a71c8d105656c627815ea457399,
    0x281ef9df7f4587768834898dfdbb80b4c4a2e5a5ccfd76577c1bb5cfbfa56c8f05dba482816d3a6053b9b3f352bfbebfda6e7f9f702872d9bbe96c0e69e9bd1c9ea0fe504d13de83c64606d164e0cfad53639d500186eb16f0e16492d6f7d6a919be3f8e940d365c2bbaa49b7a95c601fe2953efa37085e13f8559c3ebe5a8f),
   (93461639715357977769163558199606896584051237541638188580280321, 0xfc7a86acd95a90a558c28bebc8268294383eeb73fc8dadb462033bbb58356cdf81f230b691439611b35f2a48c1bd3d57931b1be5b225d41c0439e72e2832ac4b4e9af252abfd1d2a31177c4d559e38bd74cd2b4f573a04980d1e5d8013ad477c469ac50fde133d895f532075db6e7aa188bbfaa7e2a9fa22a3595381cecabb60,
    0xcb3e36663c5d469aa8ff8017b3331e3c987c1dffb23c07e5df55825c82d049d481197a9638b1ef655f3b094121b6ff86b5487e4a992cf98a42efa3a34d7c8247d119109516972af600bf94fdc81657f5806a8532bd444d61c105bdbe52f7161f80c46f660eae1c477cef4c2ad9cb220d5f53e4e6a2c2db35b74f8b86b42e300a),
   (2424833, 0xf10bed15bec121979f0a221a1479727edecb207b3f341aaef6c01c5d589cb30906c365b16ef7b24f9b43c29a9b336eddb6c15b06fc223d46c87555c1a65b00ffb5e1c4f82a0ccc79a32819f56c1820c9287b53f6a7b790b647b27004d4feadcccde8cd77a915d7d8939e0a836bff33ff6fe658962f67ca467459f0c9ba7124db,
    0x5b8a98b6279f4bcb8be5fd7a77190d03135686502c49dfd5ee65a7f76c1f3f65a418a11ef78a92d7a3f1dfafe55a2a7ee9545e13ac977d7d8aa2fb4164721a23bae9565c51b155d47c26dcdd002de0729359c5ace84823545a8584b6325c4e2810b7cc42394864675eb49c0e4cd399b78a5f09bede0db8efc91c85d19ed96474),
   (7455602825647884208337395736200454918783366342657, 0x3adb1df8de248f34bfb1248403913f541fb7d04a9dcf7da0dc4f4e5ac32d5bb8e07c2d770a3213d4cb610fb9c20e9ad8174d49f3eaab6c2f526edb183fe5afbd32edcbf78fe4b6b6226a6626d2c7f6e0782fd1c3cd1400de87f4bb1a7f80f88adcb1862392463a052f20164ae9b025631884cc80a0ca92486fa43df751b716a2,
    0x19c97937bd74fd43e4b9d85138a66ea76a60ff327befcc46032ffcbbc23b5f82f8633513c982953ccfc09a2b6b11bd2b9593942a26087e0c66ae9b583919df0842201052d65b05aeb8a4365073a3396f5918ea7f647200552abd91a4dd1d29828a03849ab91815fa5ee848b59561b0c62d4acdfcba09a8c8d92fbe4886dfb346),
   (741640062627530801524787141901937474059940781097519023905821316144415759504705008092818711693940737, 0x638fe5ccf5f76817ab6f154e3b563d49ed89c6a278a3039ecb8e55f8d4a4cc46d1bb2aab615d018c9e54a3d8904e50f08156c6817909b685d20cc38241826856d565d12587399d0b58682f929e63a5e8a14db07f7124498ca4c2324e76b181f2057ae9683bec31d870dcb43c3dc0836524e42a8fb498d1ada6dde5fd658a0cc8,
    0x58062cabbce10fd562443620a82beabdae55e0263681d585a698626bc68f7ed194fc766c702c44d7be700b5367e6eea1fec4838720bb76b1fc0acec8e0c01aa4cc5f8be886be19969ba6fb4e8b858e16def4b5960c3970a660c5d7d079979751a17a8591d9775ee6475a4b979952982cd639f12beed1527afdc59ff279bf1baf)]

theorem xors1024Ord_3 : ordCheck xors1024Poly xors1024Mu 64 1024 3 0x32931475fb5446e7e38d9158d94d1d00b61fbd22c3fc16ed21467fa22367f9f73ac94ef45b4fb7703febddef41686af4f9a1266acd1cf80ce353935cf3ef65f1565e39a91cadd6285325661552f02525bc180661a75869bd1e50eac6934752f994da676a86345b20ae793e8ecbba7460b5122e7d46e917cef5bd7d59998441a8
    0x32931475fb5446e7e38d9158d94d1d00b61fbd22c3fc16ed21467fa22367f9f73ac94ef45b4fb7703febddef41686af4f9a1266acd1cf80ce353935cf3ef65f1565e39a91cadd6285325661552f02525bc180661a75869bd1e50eac6934752f994da676a86345b20ae793e8ecbba7460b5122e7d46e917cef5bd7d59998441a8 = true := by decide +kernel

theorem xors1024Ord_5 : ordCheck xors1024Poly xors1024Mu 64 1024 5 0xab8c470f886ccde32bcafb58ba2d8602fd79172ab1dacfa094cebb81de3e84a779d0ac6e99d9a695857d2c4fd82cc35a17a914b870dc0b10fd26a0a8db7a07fba0f25ccf98f96c2502d93b7886c530f67ecfe9bcee61be5a55b888fbf1e099f735b38dae660ca810dd99bb83240ffe17da3231c0b28100f3d0e4196e68be1570
    0x4d99ca06428ea54222b809c4b2f91306614c2038c7d306c1faec0637a8bdd82c01a1bab8376322bbe90062546c6c7eb19fb50e15196b2850e3e41982c5b4abfc2629ce52729f2fd9143584390ad6a410a9b8bbe3044638231d6dacd93110d170336b6274d923278c0024c9d4209a76a60b55da9794cb02dc9be8ebb7c725486f = true := by decide +kernel

theorem xors1024Ord_17 : ordCheck xors1024Poly xors1024Mu 64 1024 17 0x4733b43baeb2d73e7a33e1c8ca38a3ee7d3968c2bc9b97474d535b4c920e2168ffb2c7c19fd1624045442160317d2544d1aed627e721bded46168af1dbfa67ce37608efda6a8a077052153a2147b0e014eb7c0e23b478f061343ae304f1ca06002a4f9fa704bd97a7e49391faa967b172a22107d46f40205c700dab885a0e396
    0xebab72dcedc0b464e55fd4ae071e5990e738740fd661509ae0134242527735a4cebc09340af8b9613227c18e56f4094a59184855119396a37fb7bf7dbc5b952a78fdbbe8ef3cf2d9fe970138d3e79a4e9dc5977d5b267dbcfced60bea1fe4a3569a3dcfeb251421fc69caa67909d698a04f485d805a09c3c985240dc62107791 = true := by decide +kernel

theorem xors1024Ord_257 : ordCheck xors1024Poly xors1024Mu 64 1024 257 0x3743a9f2be722825b758661a655f293303d5d5837a8b6503482219458b58297d9fa0d52fca4381e6987bdd586332d20583ba27a7cce3cb84f1d2eccacbab67c8cc0100e77983c0c9c118e2042cccb78869cc1e3062e7080c4af5c0a220d5f44ed269d8afa50ebef90c8ca87e7d5240bdc3ffb16ddc449f1aa53e7a1ec175b591
    0x974e4d2d6f9b85b567a1a6097f6aac6eabd023ead31e6c99119c33290ce62c8a2742087a54914c6c9d9f82438ca606a622ff95e5451b57752885a41e79da35b578b9355cb8abb8b7d8e853f264b776ac35a3b5707cf4d1589f4161e726e1678581debee4b4b2cee8391fccdacd3dd5d8df41c17d83b37b0552071ce4f44713 = true := by decide +kernel

theorem xors1024Ord_65537 : ordCheck xors1024Poly xors1024Mu 64 1024 65537 0x3e6f1bbc46298e66025be07a9f4ad2fc47fbc87228d08cc43e0695a69ca7e89538eabd41998505e29e16ccb397b4382f29532851482dbbbc26302af590477ab729228d5792da434f1235885b1e415829defcb78085512a0eafd93e79e21f8038daab2292534346e68c69a67831cbed87b301da27f542a04823d200439101b3ec
    0x85825dcc5b1a1734eee438d3523c6e27ade84a4b602745747b37224bc18d7800f9ec0f2c8879774ab4333ba4297b858f903eb0ccff22ba281f969b1328dbb0ce20ac0bcb731411b161262f8521eed7d45916dc3b8ef7c7ac6435fb57b0c2b995df923065cba239630ec2c0feca4f0a82d4140ea19d7413bf8323a8467450f2e = true := by decide +kernel

theorem xors1024Ord_641 : ordCheck xors1024Poly xors1024Mu 64 1024 641 0x3189e17027184a2748bc54687a6b159d020b1f19839c6fbf9c786a3276be4cdb5060be0a1bde9f03444985a95fb49432f3cc853c06a4cbcf70fa887aa25cf9088add50ab83d6991932459ea05cdb147e8a03dcf2113237b5f7aa3f1bfcac0bab2f87879a323e9ce1b6142bcbe93c5b0ba7a6e6943bd394cdfca658c0e41d9fe2
    0x8cb8eab30610311da5b2b8c03f6429d21889bb4d10112321391854445d0eb69fa2fa55903ff7bb97b5c5f1d14a8e2339b7104fb93a79355c658e1db4ee301e289a9d23663d5542a6445aefbbb67c1e34a2735b5676edc7b3f07b39410364d8036b7ee30d6692077c546df54e02e4026dd96bd6f97f3eb04ce97f7733c87b41d2 = true := by decide +kernel

theorem xors1024Ord_6700417 : ordCheck xors1024Poly xors1024Mu 64 1024 6700417 0xe6a49d3c5e9e77aadc8383aff9377f7bb81187af70b1a3aa3a303f84380edd776d2f6df3d36e9f871d70a096c9209ceb371bda9a2b4368ef701c1bcd0caf350647029409d32b620d15e4fd43751fcea4788c8cf3b7c2b35b514fe33830611b162bf174610d191840eb05996f2f0a09ae687b2b2446d0836007e8d438254a867d
    0x3446daa860e5a5c567f659b4523e73f524ce9edb0383e3ce81779cf60e52b159bb9a0491b259027a8acf97b34efe28543519fad8b329499f43f8cd838e2f1c21c2c7a9c8f2a7cfcd6d742e36dfc599d1ed10f9b1ddbceb944336224ba8418c5b5fc5cae5c9f52088e63385da2985e5e5d93ddd67ec138fd167b8e941b65bbc82 = true := by decide +kernel

theorem xors1024Ord_274177 : ordCheck xors1024Poly xors1024Mu 64 1024 274177 0xa5cef5db95c630f19646e2deba6ea3a05b99f8e89d6e27f0f4b4aa361f6ae03e5908b657e3500190b7faac4f6f925a78450a8ad90d63627eb3a486eae94e6549736f33c6d1b9a41e6bdaeb20228f4c8de7bfc9f9fad7c644a20ba0190420694431d02cffa19fae5d3ee97f65c23ea38ea29884fccef06b13a0b2083687318af
    0x26d8bec01059e2e899b6ab955afb154110f5304f7f72499208f04cf35df5e91627f36cf06a36ec669eee17bdced2f6a7a4bb3dcae9df0f5a3c54b1726aeaaf5fbcf60269dc2fb4ae3054a734b73c96fbf1344b41f57c46ef5fe119a8586d518ce9774d223717304610c4521c182a05bd485abb2e4b7ad66c493619dfabe4ce01 = true := by decide +kernel

theorem xors1024Ord_67280421310721 : ordCheck xors1024Poly xors1024Mu 64 1024 67280421310721 0x8af1e072a2b2c79aa05ca39eaab5a217dfc8d65d28702b36e711f10833c44585fbe4204c7f4cadb32a8bc286a6679818a3e344801f5527ec7ddea388dacbd7f87bb3f8a05f7301773e2f2783e6db33214ba1629871e5600984a887e53db2fedcc43d5d2dc842fc5a97766e9a6f92e5645a250ec45b57b0623d35373a6f1fff24
    0xd0b87bbdf72f72b49f9aefa875d1600189c3362dd2b50a6e14195c966215a546003e5780c33a0c258c10cc443c50e01829f034d321e3327aa7adac1996bee5ba0e5e6cfab17e722babc2745b0e8141ad0b68445e965aa9e26c75a8d332f773947a9cf0ba9c1958ae149bb7c8bd4ff4b81ef64db0858e884c7a7eae1053268789 = true := by decide +kernel

theorem xors1024Ord_59649589127497217 : ordCheck xors1024Poly xors1024Mu 64 1024 59649589127497217 0x2249d73cac1225735a1648b703dc36fdbeb18ae9039b6dae9493001dc18e292524e3d7b8dfd19fd3a3d93f22b8c7f3cbb753cde8cad3668c7e910461e76386470268643d23051f7ead3a07c9c18339492a877d79c2b929a2363f9484325cafa53bcaa72a9010876a32374168ac3f9becd367d0dcbc580680b9160ce24ed9715f
    0xc0181703ae364f640524ef2364c3d51655860da9e4123f0b36258dafb761b2af05c46a501ca5839252238b7c0afefdb20de840187fa29c032fd3409f237ded1162476ade37b3d5f6b65daeeb20478ddbc95dc1ce4d01f0285ba4e422eadbde9bb969b21d347282b792a8572093e642d6e05e6c0b08e41c7aea5d89e606a40951 = true := by decide +kernel

theorem xors1024Ord_5704689200685129054721 : ordCheck xors1024Poly xors1024Mu 64 1024 5704689200685129054721 0x9c1fac7f17cdee861e9995f077c9134930d7b74908dfd2d129e9183ebda2f430a32f8224e8afdca9ab26619e274ff8c3d6e15b221e529f36967546fbf1bea2b428b4bf4a68c7450a0e53ff701e82ac90e7f2b23d263a8fae9d6a22bae4e938b10206f2bb09689b6744723c4cc49f28d44826b3077a30e7d46c868e571003272f
    0xdacb78119ea53996b1182dffab2aff68ac973ddffbc6907ee7962e330f77c33f61c83ea3606bade0bed1fa7f072134624a63e3e25a62651452450f4effc25036bf82f6616c6f819ab92cd36fe8e99067a06717da79bdff3e26e2b80cf9f368af96f1c83c306902913508242b536dd1208910d1fe71070b7b913336d17ad149ac = true := by decide +kernel

theorem xors1024Ord_1238926361552897 : ordCheck xors1024Poly xors1024Mu 64 1024 1238926361552897 0xd8360311d7a0334f44f575b096669bc9eb370c025855fd01297039fd03d93493c6fe95be5d31cb51f8b121a8628a9246a7acdb49693fba73331a081d7b3fe78d3b70a02bca62116cd34a8747c3f33e23ffed15284a450cbdd3555f2e7384d737a3cce3748e89d06e0bbdefe1b5a821a49b2b6a71c8d105656c627815ea457399
    0x281ef9df7f4587768834898dfdbb80b4c4a2e5a5ccfd76577c1bb5cfbfa56c8f05dba482816d3a6053b9b3f352bfbebfda6e7f9f702872d9bbe96c0e69e9bd1c9ea0fe504d13de83c64606d164e0cfad53639d500186eb16f0e16492d6f7d6a919be3f8e940d365c2bbaa49b7a95c601fe2953efa37085e13f8559c3ebe5a8f = true := by decide +kernel

theorem xors1024Ord_93461639715357977769163558199606896584051237541638188580280321 : ordCheck xors1024Poly xors1024Mu 64 1024 93461639715357977769163558199606896584051237541638188580280321 0xfc7a86acd95a90a558c28bebc8268294383eeb73fc8dadb462033bbb58356cdf81f230b691439611b35f2a48c1bd3d57931b1be5b225d41c0439e72e2832ac4b4e9af252abfd1d2a31177c4d559e38bd74cd2b4f573a04980d1e5d8013ad477c469ac50fde133d895f532075db6e7aa188bbfaa7e2a9fa22a3595381cecabb60
    0xcb3e36663c5d469aa8ff8017b3331e3c987c1dffb23c07e5df55825c82d049d481197a9638b1ef655f3b094121b6ff86b5487e4a992cf98a42efa3a34d7c8247d119109516972af600bf94fdc81657f5806a8532bd444d61c105bdbe52f7161f80c46f660eae1c477cef4c2ad9cb220d5f53e4e6a2c2db35b74f8b86b42e300a = true := by decide +kernel

theorem xors1024Ord_2424833 : ordCheck xors1024Poly xors1024Mu 64 1024 2424833 0xf10bed15bec121979f0a221a1479727edecb207b3f341aaef6c01c5d589cb30906c365b16ef7b24f9b43c29a9b336eddb6c15b06fc223d46c87555c1a65b00ffb5e1c4f82a0ccc79a32819f56c1820c9287b53f6a7b790b647b27004d4feadcccde8cd77a915d7d8939e0a836bff33ff6fe658962f67ca467459f0c9ba7124db
    0x5b8a98b6279f4bcb8be5fd7a77190d03135686502c49dfd5ee65a7f76c1f3f65a418a11ef78a92d7a3f1dfafe55a2a7ee9545e13ac977d7d8aa2fb4164721a23bae9565c51b155d47c26dcdd002de0729359c5ace84823545a8584b6325c4e2810b7cc42394864675eb49c0e4cd399b78a5f09bede0db8efc91c85d19ed96474 = true := by decide +kernel

theorem xors1024Ord_7455602825647884208337395736200454918783366342657 : ordCheck xors1024Poly xors1024Mu 64 1024 7455602825647884208337395736200454918783366342657 0x3adb1df8de248f34bfb1248403913f541fb7d04a9dcf7da0dc4f4e5ac32d5bb8e07c2d770a3213d4cb610fb9c20e9ad8174d49f3eaab6c2f526edb183fe5afbd32edcbf78fe4b6b6226a6626d2c7f6e0782fd1c3cd1400de87f4bb1a7f80f88adcb1862392463a052f20164ae9b025631884cc80a0ca92486fa43df751b716a2
    0x19c97937bd74fd43e4b9d85138a66ea76a60ff327befcc46032ffcbbc23b5f82f8633513c982953ccfc09a2b6b11bd2b9593942a26087e0c66ae9b583919df0842201052d65b05aeb8a4365073a3396f5918ea7f647200552abd91a4dd1d29828a03849ab91815fa5ee848b59561b0c62d4acdfcba09a8c8d92fbe4886dfb346 = true := by decide +kernel

theorem xors1024Ord_741640062627530801524787141901937474059940781097519023905821316144415759504705008092818711693940737 : ordCheck xors1024Poly xors1024Mu 64 1024 741640062627530801524787141901937474059940781097519023905821316144415759504705008092818711693940737 0x638fe5ccf5f76817ab6f154e3b563d49ed89c6a278a3039ecb8e55f8d4a4cc46d1bb2aab615d018c9e54a3d8904e50f08156c6817909b685d20cc38241826856d565d12587399d0b58682f929e63a5e8a14db07f7124498ca4c2324e76b181f2057ae9683bec31d870dcb43c3dc0836524e42a8fb498d1ada6dde5fd658a0cc8
    0x58062cabbce10fd562443620a82beabdae55e0263681d585a698626bc68f7ed194fc766c702c44d7be700b5367e6eea1fec4838720bb76b1fc0acec8e0c01aa4cc5f8be886be19969ba6fb4e8b858e16def4b5960c3970a660c5d7d079979751a17a8591d9775ee6475a4b979952982cd639f12beed1527afdc59ff279bf1baf = true := by decide +kernel

theorem xors1024Sq_check : sqCheck xors1024Poly xors1024Mu 1024 10 2 2 = true := by decide +kernel

theorem xors1024Ord_prod : (xors1024Ord.map Prod.fst).prod = 2 ^ 1024 - 1 := by decide +kernel

theorem xors1024Ord_prime : ∀ c ∈ xors1024Ord, c.1.Prime := by
  simp only [xors1024Ord, List.forall_mem_cons]
  exact ⟨prime_3, prime_5, prime_17, prime_257, prime_65537, prime_641, prime_6700417, prime_274177, prime_67280421310721, prime_59649589127497217, prime_5704689200685129054721, prime_1238926361552897, prime_93461639715357977769163558199606896584051237541638188580280321, prime_2424833, prime_7455602825647884208337395736200454918783366342657, prime_741640062627530801524787141901937474059940781097519023905821316144415759504705008092818711693940737, by simp⟩

theorem xors1024Ord_check : ∀ c ∈ xors1024Ord, ordCheck xors1024Poly xors1024Mu 64 1024 c.1 c.2.1 c.2.2 = true := by
  simp only [xors1024Ord, List.forall_mem_cons]
  exact ⟨xors1024Ord_3, xors1024Ord_5, xors1024Ord_17, xors1024Ord_257, xors1024Ord_65537, xors1024Ord_641, xors1024Ord_6700417, xors1024Ord_274177, xors1024Ord_67280421310721, xors1024Ord_59649589127497217, xors1024Ord_5704689200685129054721, xors1024Ord_1238926361552897, xors1024Ord_93461639715357977769163558199606896584051237541638188580280321, xors1024Ord_2424833, xors1024Ord_7455602825647884208337395736200454918783366342657, xors1024Ord_741640062627530801524787141901937474059940781097519023905821316144415759504705008092818711693940737, by simp⟩

end Verif.Linear
