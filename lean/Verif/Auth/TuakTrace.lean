import Verif.Auth.TuakClaims
/-!
Four runs of Keccak-f[1600], round by round, and with them an AUTS of a USIM
with a K of 16 bytes that `osmo_auth_gen_vec_auts2` refuses.
-/
namespace Verif.Auth
open Verif.Endian (beVal leVal)

/-- A list of 25 states is a run of the 24 rounds. -/
def isRun (t : List (List Lane)) : Bool :=
  (List.range 24).all fun i => decide (kRound (t.getD i []) i = t.getD (i + 1) [])

theorem keccak_of_run (t : List (List Lane)) (h : isRun t = true) :
    keccakF64 (t.getD 0 []) = t.getD 24 [] := by
  have hi : ∀ i < 24, kRound (t.getD i []) i = t.getD (i + 1) [] := by
    intro i hi
    have := List.all_eq_true.1 h i (List.mem_range.2 hi)
    exact of_decide_eq_true this
  have key : ∀ n ≤ 24, (List.range n).foldl kRound (t.getD 0 []) = t.getD n [] := by
    intro n
    induction n with
    | zero => intro _; rfl
    | succ n ih => intro hn; rw [List.range_succ, List.foldl_append, ih (by omega), List.foldl_cons, List.foldl_nil, hi n (by omega)]
  unfold keccakF64
  exact key 24 (Nat.le_refl _)

/-- A run of the rounds. -/
def runF5s : List (List Lane) := [
  [0x38393a3b3c3d3e3f#64, 0x3031323334353637#64, 0x28292a2b2c2d2e2f#64, 0x2021222324252627#64, 0x5455414b312e30c0#64,
   0x18191a1b1c1d1e1f#64, 0x1011121314151617#64, 0x0#64, 0x90a0b0c0d0e0f10#64, 0x102030405060708#64,
   0x0#64, 0x0#64, 0x1f#64, 0x0#64, 0x0#64,
   0x0#64, 0x8000000000000000#64, 0x0#64, 0x0#64, 0x0#64,
   0x0#64, 0x0#64, 0x0#64, 0x0#64, 0x0#64],
  [0x2c3cb1a5c9c4e8a6#64, 0xb28d762e326656a2#64, 0xbbc1dfc179de7999#64, 0xf38caf8c34105151#64, 0x8da9c58ec7fcc1a#64,
   0x6e0d96517a2b5081#64, 0xe1b6c8d2ab7ac591#64, 0x38fed03a2303bc08#64, 0x6f891e3e7eaeef8f#64, 0x5efc8ec94b9a485f#64,
   0xe286ec89d89f98af#64, 0x9cfd9af4b7f4e39c#64, 0x6a9c6a03d5010f49#64, 0xebeb63636bf3f7cb#64, 0x1525c2b5db24574c#64,
   0x6a436a4c90f9f1c0#64, 0xb778b97ac0e7f97c#64, 0x49515f656db10581#64, 0x3b7f117a318ef93b#64, 0x2596168ef5447d47#64,
   0xd327ef317686d108#64, 0x180ec6d8d6a4b1ef#64, 0xb4b47a65745d56b5#64, 0xe6f9142e381218f0#64, 0xc989d11b69c9d9a6#64],
  [0x425653b1345b62f4#64, 0xdb68390e907810ae#64, 0x69b550f7f0c509f0#64, 0xdc6ce5d1a04ecb09#64, 0xeb875acf1c5e0490#64,
   0x552be05687bfa4d1#64, 0x4cdb05daa2cd772d#64, 0xe7d0427a4d067a3a#64, 0x5f7d92e2a6c46430#64, 0x90cea4d0a3aaf4ca#64,
   0xd797e2be4b12c26d#64, 0x2fcc2e56806173e7#64, 0xd7782333bd61ce58#64, 0x58f96b4bafc513ac#64, 0x1f1b9a73da87d56f#64,
   0xeeb587684cc8b60e#64, 0xe7b7f31493134746#64, 0x15811796a2e92d0#64, 0x77b3825cb6803a08#64, 0xdcacf76bb67df32e#64,
   0x7050a9e61751cb6#64, 0xdb12dbb0d885414f#64, 0xd5ff8de3f5ee9128#64, 0xc544aa507f80d601#64, 0x7d56d5854daa0a94#64],
  [0xcfe2097efbf7320b#64, 0x3e52168c4413c784#64, 0xfbe14c94e3dffcae#64, 0xc7e2d545f7afa134#64, 0x263b275d81fa55ab#64,
   0x406e5c47ed392dd7#64, 0xbd16ef1d9d44b851#64, 0xdc1d82cd8891d184#64, 0xb2a87eb14a966703#64, 0x2ff3f8cdabc4d64f#64,
   0x4294aff077e1a105#64, 0x4f642d4933f00b8d#64, 0x351fe92aa0bd0a96#64, 0x14f10afcc19ad3f4#64, 0xec44355a9399768c#64,
   0x20b631e94a036ede#64, 0x98ace009933d8a16#64, 0xdaa2c7addf9a0876#64, 0x23efb9bc16c2eff0#64, 0xed82669ae0a1aad1#64,
   0x4294408c6a4fe6a1#64, 0x72bc7f9c62e235f0#64, 0xb8d488ad48fada2#64, 0x9b9cb4c3612b6c41#64, 0x4ddfe09cdae5cbb#64],
  [0x81de9b97d3a6e55#64, 0x80b3ebd3534ab54a#64, 0x976e7c057fb44d2a#64, 0x256f82382391b69b#64, 0x31eb914aaba02152#64,
   0x20f9cb49a919a282#64, 0x58260283952a84c6#64, 0x11fbd0fab5cdead5#64, 0x772c261167b10af2#64, 0x2dc7afe76d2e4d3b#64,
   0x3db39b1d29ebebea#64, 0x66a9fee1534d7fb0#64, 0xb67258bff3b13618#64, 0x131d2e6b2d520d0a#64, 0xd33b60f99d781c8e#64,
   0x99939439d5285578#64, 0x160dd2a28acb8e44#64, 0x1a99a50d78eff1f7#64, 0x7a05683f76928782#64, 0x4b49fc782c5b15ec#64,
   0x53d28f692f0aac71#64, 0x28561592879d521#64, 0x42cc4b937cd73080#64, 0xa67545497926d530#64, 0xcc5af27689610e1d#64],
  [0x572e167784c6f36#64, 0x4f2deb256b183920#64, 0x1b2f31284dbdc049#64, 0x5be61e234f5053da#64, 0x4e833c1c95797bd4#64,
   0x3a5b8f0ebd1041bc#64, 0xe29a42d30000c0c4#64, 0x46b0aaadd085d27e#64, 0x1a11000fa5b13d58#64, 0x9ac4f4e730f8100f#64,
   0x1cd2b8a05690d0b5#64, 0xe8ab453f7c61ba0#64, 0x155abcb5dac665be#64, 0x4b1e364100cad069#64, 0x1e92fdf0161f31be#64,
   0x47141b7b5495c218#64, 0x8cae733158c97c6b#64, 0xe5ef8e3c3e3b9be0#64, 0x596d17ec180c4b0#64, 0x4f4efffabf17630#64,
   0x1141f5b9e169b4cc#64, 0xa74feb4fdc4b48c7#64, 0x3677db181c875bae#64, 0xb4099f815d38e9a9#64, 0x15d9d3274ddce0d6#64],
  [0x63b676418b465f51#64, 0x437a6abce1ea28c9#64, 0xccd9619c71ac175#64, 0x1792d6bd4b472976#64, 0xe120d5d3781591f7#64,
   0x889a01d13b35b6e9#64, 0x2550897f639efe6f#64, 0xdc95d42134c80e6e#64, 0x9376fc7657a27426#64, 0x5f285254fdb79d52#64,
   0xdff725790f1c9e89#64, 0x3858b4897eb8ccbe#64, 0xe69fdff306c40eac#64, 0xdef915910af484dc#64, 0xff7a810f26fb2c65#64,
   0xbd7d9fcf4ea64856#64, 0x3e22b6f31ac5a74#64, 0x7139c033cd720136#64, 0x6705bea1b512cdff#64, 0x691aa4de329b8b6e#64,
   0xb875f72ee71bc47#64, 0xc51d4e287cb7ce68#64, 0xf6f185871dbd389a#64, 0x1745975f86333c33#64, 0x5574ddb0d37efc87#64],
  [0x29b02cbd2e553072#64, 0x78953a74da7d5369#64, 0x72c4159c625af63#64, 0x2652fbc37c918672#64, 0xeba8b20db409ddd2#64,
   0x74bfe7f3b582f318#64, 0x65aa7731b43713d6#64, 0x9dd977212cbffd0f#64, 0xcd8a58d82032afa4#64, 0xc658cb505cf45ca5#64,
   0x3ccb2a94bc933dd#64, 0x2830893b0f705987#64, 0x577d86262e338c64#64, 0x4016520cf8e7ceff#64, 0x3a0d749949a91605#64,
   0xe302a5dd3047f21e#64, 0xc7cccfdc68c0fa47#64, 0x8a1cec3aced82709#64, 0xeeb99e2dfd803b93#64, 0x7a312ab0a5a692ab#64,
   0x383fb0571f2b47f2#64, 0x15eaed6fa7fbe5d0#64, 0xc9882060b2ab10be#64, 0xa34edb5fa0166df#64, 0x934db2a0422275fd#64],
  [0x5ec274c2258d6910#64, 0x385639c68aa5436f#64, 0x45f409f60a67e719#64, 0x317b6f746837bcd8#64, 0xba200cc41b7be75a#64,
   0x7c29fad84dd68bc6#64, 0x75483597845d26b9#64, 0x8af7c70488da552a#64, 0x6d164b494f67ce44#64, 0x7644dd70c94c0862#64,
   0x82bd5f2ebb718a99#64, 0x9385f881c8e3b38d#64, 0x619b288a7a62108a#64, 0xccf7acf886f3f136#64, 0xbd203735ae267397#64,
   0xc73c5f6a9c5cbb47#64, 0xf288e79d665b8ad2#64, 0xf07c5614ce778ce1#64, 0xc1f457e92e86fdd9#64, 0x19798bae5b4c3be7#64,
   0xdba0899a8afeb5c9#64, 0x253ca871ae2a406#64, 0x54b24fb75d17ad08#64, 0xa41ec325eaf11454#64, 0x10eea62994f1cfc0#64],
  [0x3b125c78e164701d#64, 0x226985c6ddfb19ce#64, 0x69e847a1d652b75b#64, 0x95744c6552439023#64, 0x2907df0f46832e6a#64,
   0x36340b888c28b01b#64, 0x67043a9eff52cc8c#64, 0x3579296be8c28855#64, 0xb91b617debd5eed7#64, 0xdb0025cf95c4ba3d#64,
   0x68778b29b8c44315#64, 0x1541b18f748e3886#64, 0x1d31390edd0db1c0#64, 0xbddaad94881c4381#64, 0x51ad044af565c749#64,
   0x2faf306fa1f1b0bd#64, 0xe015359307a82eb8#64, 0x8c1a6f6870a9b4ef#64, 0x78464fbbd000bad6#64, 0x840feaaaf5ee1246#64,
   0x117532033ec96856#64, 0x84ed1d753ec605b#64, 0xf1fa5188c2025baa#64, 0x2a4093cd42c790d5#64, 0xaada8a4461779196#64],
  [0xc622462b5709a293#64, 0xaf5aac6eab6eaa58#64, 0x31c144c187176453#64, 0xede8a070b131f23#64, 0xbbb135962c2226ff#64,
   0x2c64244b0f78b538#64, 0x553ae6b22993ab06#64, 0xa62b234465148ea4#64, 0x10eadd61cc0d5cfe#64, 0x58477acd705d3088#64,
   0x63a52a724b798a70#64, 0x921d83abce4167c2#64, 0xb77cbb13177bf8f5#64, 0xa9ca2ae3c3b2c0b0#64, 0x7d1ca3deffdfd617#64,
   0xf130f626226cb9ac#64, 0x314079a4ae5655a7#64, 0x6bfd2fb76ae5a689#64, 0xa6861a195e1bc021#64, 0xc74ef64eb8768253#64,
   0xd18e60b1603aebc4#64, 0x7a83ca3e326bd819#64, 0x120e39804f34db1#64, 0x4ae478b57ede560f#64, 0x8d56e6a0e486e2c7#64],
  [0x152ec68b4f337432#64, 0x749640f1994c5e7#64, 0x50ca090f57cd2479#64, 0x4a6b7d841f0ab13d#64, 0x5960c8908abce1dc#64,
   0x97fddc7f0fc5e624#64, 0xa2eb691afa4d0f35#64, 0x93e9ca742a43e687#64, 0xa9450b8a7c895f1e#64, 0xbab6f4645394018b#64,
   0x3526a7311fdf26be#64, 0xcb49fbf171dbf646#64, 0x9f4c6a709345c184#64, 0x68766b2f2a0250f0#64, 0x2e5da16835d1c801#64,
   0xe416f342dcdcb4b7#64, 0xb6b831d3cc3436b5#64, 0x11d87427c16116fd#64, 0x94d2cc3d37125bac#64, 0xce014219f9395aee#64,
   0x6857d9bf9fd137f1#64, 0x6ce9825fe7abe132#64, 0x858ede9a1f806dbd#64, 0x9fcf38dbfdaf04fc#64, 0xb88f52157a7577b#64],
  [0x771c67b7de0f96d8#64, 0x8cba9e16df9decf1#64, 0xbc9006b1ba49b6d#64, 0x28283a070a2f1d25#64, 0x84273b3477d95708#64,
   0x283ed809193f40e7#64, 0x211b4f867d648dab#64, 0x829212215412a267#64, 0x16adc38fdd11940a#64, 0x3337ef0f504c11b5#64,
   0x583720b45bc816cb#64, 0xfa9706e52d6785c9#64, 0x6117dcf3896092ff#64, 0x3590eec2865cb141#64, 0x412abe7630678485#64,
   0x2da0c34c99325579#64, 0x29d1774f7b8742d7#64, 0x3da9541a8cce7c81#64, 0xc8e83e528746f2bc#64, 0x8056ee6d45cccbb5#64,
   0x7bbde4ba3a990a5a#64, 0x51343c2cfa6036ae#64, 0x4e93674897fbffe3#64, 0x618c00dad0a42ec3#64, 0x1cbc502aef08ae03#64],
  [0x802b0b81efdb9049#64, 0x25b13d6d66aa1c32#64, 0xc451949869940c42#64, 0x35ef93028470d76d#64, 0x161011a55d6fc82a#64,
   0x92de77a9b623767f#64, 0x62d30ffca6232e1b#64, 0x6e36708e807ce48e#64, 0xcbcfeb6622e31df8#64, 0x25b4d50f521075e5#64,
   0xc6bf3b52b2504057#64, 0x6e433ec5b1beab3a#64, 0x78038def84f7be5e#64, 0xe23bc5356d004e93#64, 0xa3229f778af9080#64,
   0x306ce443b50ebf1c#64, 0x8b6c2e89c6936bf3#64, 0xc93c22a3ed7fc674#64, 0x7d94e3fb8a243a5c#64, 0xc7af50c564e66aaa#64,
   0x383db3dec37510ed#64, 0xf2c7f5a32b19fa8#64, 0x306e252cf4f2072c#64, 0xef9c45d3aa7ec4d0#64, 0x1bc5f01cc35fae48#64],
  [0x3e25fd4a1698216c#64, 0xa3e2f94bc5c6d#64, 0xa3101e0a077c9e8b#64, 0xdd9eb5adddb38b47#64, 0x722a864c79df9770#64,
   0xd1055135cd489426#64, 0xda28a7d1f8a17d1a#64, 0xdc0f670340153af9#64, 0x6cbcf017b540524d#64, 0x1abd0f0b146f9af6#64,
   0x5ebde2cc24b8be6d#64, 0xd64e8f1437dd3566#64, 0x8066865c0241f66c#64, 0xc0e3f1b0a9bb6191#64, 0x951678e815011c9f#64,
   0x8da32e09293540c8#64, 0xe22490dad308160b#64, 0x92cf3b15a25ef810#64, 0x388bdaf02e153c65#64, 0x30b02827a762da6#64,
   0x9d2daaeb0dc445d7#64, 0x2f95c08fa8df4126#64, 0x641a19df1293c6f4#64, 0x531973a4a2e591db#64, 0x35fecd411925f69a#64],
  [0xe2bbdf708fc4ecf9#64, 0x68a862963d6ffca9#64, 0xb5faebeb8ab1ffc9#64, 0x103dc0a89a909dff#64, 0x992b186ddfd80bed#64,
   0x3169379da5ae304e#64, 0x274e8e553e3420fb#64, 0xb19e8a41faaf9018#64, 0xd9e9f909bc37bc65#64, 0x1c2ae4fb8f3e9960#64,
   0xc651a98349f41b62#64, 0x4c0e88be60945390#64, 0xeeb3371242b44b25#64, 0x7f8bf903b5f4f218#64, 0x7ee3181cb22fb704#64,
   0x9faac4e7025279fd#64, 0x484f83295c8f3033#64, 0x5bbdb95c18ca6db1#64, 0xa799acbdc8a103ce#64, 0xa895eda7fccc769#64,
   0xd418d9447e46f75d#64, 0x4c68f420e2398455#64, 0xc0ec23e29178c3fd#64, 0xf299318ad63e92b0#64, 0x5d1fe3aee20b5baa#64],
  [0xc971a03f5a6a8afa#64, 0xb79fdd264ca8c7a0#64, 0x2ea3815e96746c22#64, 0x28e014dc7461fc89#64, 0x37661db4c66e5588#64,
   0xd6576dd4397b1f6#64, 0x8f43946e9fdd35d4#64, 0x2def95f5e244a213#64, 0xa04e98a669f936e7#64, 0x23139573e932fb4#64,
   0x6b082cbcc18d0b58#64, 0x3fd292460799a50c#64, 0xfaa5c8348bc54b87#64, 0x969bd5c91c977f44#64, 0x898e6debf77f4fce#64,
   0xdb781efb4a3ae0a3#64, 0x5afe3d869f48084#64, 0x5c6be86eac3f65cc#64, 0xaa1ef8467d6c9e7#64, 0x99dc174e5097336e#64,
   0x46a158fd951610e5#64, 0x203435ab79fd792d#64, 0xfba38892c17609c0#64, 0x454dee159063f1ab#64, 0xe508c08046e3e841#64],
  [0xe1c2f7c2c8f7dd87#64, 0xc26b203ff95d89b2#64, 0x9ff8fcdc12a80100#64, 0x892ad0fd7ecd9aec#64, 0x3a2dafa42c48f60c#64,
   0x5c7208800fe9285d#64, 0x9e5c78670f0b4e71#64, 0xfc7dc29ad491d7be#64, 0x227f596da689c13a#64, 0x2f5ce7b77d1e919b#64,
   0x3f43bff6d78be98c#64, 0xb00e635ae12bafae#64, 0x3c7b8c9080d040ba#64, 0x8e05fff8c52e8d29#64, 0x730814aeae6f0c38#64,
   0x70a82ec022c92129#64, 0x10002ad98c0f6a2f#64, 0xd14b51bee0c8ba84#64, 0x3bcb4a57e8e06f8e#64, 0xa09b77777e173cc1#64,
   0x67e14b4be5fb9e89#64, 0x73b982acb5f55531#64, 0xe69021fae669c8d#64, 0x4f87b3b43fad9bb5#64, 0xaad5f4d56f65e92e#64],
  [0xd0f606397bb64cf0#64, 0x19bc46b599930280#64, 0x869a480d130611fd#64, 0x31538a2478de6602#64, 0x64418207e348d4ad#64,
   0x192be576394b10e3#64, 0xb021c7ef12a55366#64, 0x63e83174a46339d0#64, 0xefb994a064a90155#64, 0xe06a13c6a0b1b2ce#64,
   0xacf1cfdc3566b8bf#64, 0xe283bd83a061d1ee#64, 0x686aa463490d7e45#64, 0xd7a2061f3b1b6c7a#64, 0x9beb6af9baa9121e#64,
   0xb659248123b223d2#64, 0x822e8ea22441e572#64, 0x26023c7425710d96#64, 0xeca72d11d63ffc79#64, 0x7095bfce28a6695e#64,
   0xec90d4ab8a58c59f#64, 0xc3fe72001f3f6e84#64, 0x53c09747238b535#64, 0x7873540d1da667af#64, 0x8dc4b7f5dbd77373#64],
  [0x25d8170830cd3150#64, 0x79cc04299ef679a9#64, 0xe0e262acdcbab7a6#64, 0x45977e958235d05c#64, 0x83c16ac0b5a09345#64,
   0xc09b344e052b6041#64, 0x932f16527f31f6d8#64, 0x5f74a008ff940a7b#64, 0x6f02083650c5fd0e#64, 0xb5bd4b606d2f507b#64,
   0xf428e4d62a7ab3ec#64, 0x47ef8a5bf8c0d7d6#64, 0x1a14703a61794670#64, 0xa2672e28bafff61e#64, 0x9efe80a7b0c82a62#64,
   0x11dad20da832b0d3#64, 0x2286d6b671bce1cb#64, 0x6ed73cb34c1a2601#64, 0x708fe5d37dfb978#64, 0xe71772a853e98d75#64,
   0x6dda936ef6a00c19#64, 0x1f76324f7eca0d1b#64, 0x5e0a918c9a49013d#64, 0xae36fc4e982fe026#64, 0x1359b633447a26ca#64],
  [0x464d9926e6fa8dd2#64, 0x21164d7baadf4943#64, 0x1fe15e49c7c615d7#64, 0x1827057c243778a9#64, 0x9943042fce299a33#64,
   0xc698db91bc9d0fa4#64, 0xe1faa4eec5f4ea72#64, 0xd9c7c4c74a74fb2c#64, 0x6ecbfc3a5b65cb97#64, 0xd0cfcf4ac018166c#64,
   0x1f93fc75fef27cae#64, 0x81f28198e0c822b#64, 0x52a0a71603590355#64, 0x4c14bf356d10355e#64, 0x3d0a96549858c1b9#64,
   0x7f89176dcfc7d9ed#64, 0x73e4e45399d2d0dc#64, 0xe9cdbf6788118920#64, 0x7cade68b432d0e9d#64, 0x71c651bac7cb85b9#64,
   0xddeba7c1b12f49d5#64, 0x269452275b89b7d6#64, 0xf5000e16f1c844f3#64, 0x7543ed8dcd44636#64, 0x428e6fd219a71c3f#64],
  [0xb80517a66c4715d2#64, 0xd4469c545b3f391b#64, 0xf78dd24004a569fa#64, 0x9a809716ac0daed7#64, 0x3f09407990fd347d#64,
   0x74b0ed66c1fe03e9#64, 0xbe7ffc98287a68e4#64, 0x9adb86d28179053d#64, 0x3ff80ccafebad1a9#64, 0x361f1825ef38cbea#64,
   0x555eb5ee7d9b4bfa#64, 0x9220db1897c81ab1#64, 0xfc34eb7b82d7836e#64, 0x9f9b477bb31af87a#64, 0x2d03b558c412a48d#64,
   0x741c4e997a0d422#64, 0x6c04365e8c4648ab#64, 0xb1fe1198d418445e#64, 0xeed41c046d536b16#64, 0xab04b966a3bece47#64,
   0x48d1147c3ef32344#64, 0xe4368e5fb2aba723#64, 0x84755f6a1dca32e4#64, 0x3503191282869902#64, 0xb9b99c6abe4e6b15#64],
  [0xde93d067fc6f00b6#64, 0xe97f29d3831c146#64, 0x204e4a67b28c7232#64, 0xc18d70a1fe85ef8f#64, 0x1faf52ad52c2f1d7#64,
   0xd3eb7cf4059bcf51#64, 0x6c25162a3b47b1cf#64, 0x79c153e149eee374#64, 0x1a2c7e71cd6acd71#64, 0x4ac6fff1012f7f0e#64,
   0x57ffc39b7f574372#64, 0x23513915ff10ee28#64, 0xca43093ba0ac2655#64, 0x57dee2fe08171be6#64, 0x4f7ca816d202cc37#64,
   0xf17321a5199e9517#64, 0x618ecada21b62d95#64, 0xa3f263f43208d416#64, 0x229489c506cac4df#64, 0x8174f9223c6038b4#64,
   0x11f391bdf08c8043#64, 0x9d7ea4b5fe280658#64, 0x26fa6b7c6189a519#64, 0x9dc7dd13de1f9448#64, 0xea73ef4f5996e895#64],
  [0xb5a6b4da9fcfc289#64, 0x1fbba9fe0e37c0d0#64, 0x7a0431ba4a5c1b68#64, 0x327af24cb8bb5e36#64, 0x302492568cb66f12#64,
   0xd7abb9e4768bd5cd#64, 0x939bd0d25020de8e#64, 0x9ee7b81ef5fcab0e#64, 0x87441e00e7e68f53#64, 0x7fa6533a10a5727f#64,
   0x3b20bb5e4679956e#64, 0xf48b5f6b3501c1ee#64, 0x8990d26108523ea0#64, 0x75cfc84e204938a2#64, 0x14c509b0f0542b9b#64,
   0xb33cef5ea8cb20e2#64, 0x679735a88df0bc96#64, 0xf150ba22dbe305f0#64, 0x71f02bc9cbf23cdc#64, 0x8e6a37c26c3ee76f#64,
   0x38c93b92ff9ae170#64, 0xb167645085ae9b17#64, 0x254e318e2fc729f7#64, 0xf8da03f45d69b064#64, 0x6af36b1e041c4483#64],
  [0xf6aee326b1fe2af8#64, 0x499b536d813822e4#64, 0x28ed7fa3854c0c64#64, 0x2250d552910e624a#64, 0x219f174b69a321a8#64,
   0x1d3c6d680f2c2084#64, 0x90d127db9d896299#64, 0xc246420d656fa19f#64, 0x6b7fbcd6b2f25ec6#64, 0xa3d4f9c8d3e33f3e#64,
   0x7332df6066ad83d7#64, 0xc39df3842aa7316a#64, 0x4cd6f8eabd4430e5#64, 0x7dbea6758acde030#64, 0x8335d52b18251ead#64,
   0xa4ab5840e5e12e89#64, 0x8f7a2b93d4bc8ba7#64, 0x327a5f0a071f4572#64, 0xee7031daf97fec9f#64, 0xd36e09f8950a751a#64,
   0xd1be5712fda2881d#64, 0xadabfe739cde7d03#64, 0x80f442e717f65f54#64, 0xeee371a4bf28ca9d#64, 0x479210dae9ea0132#64]]

theorem runF5s_ok : isRun runF5s = true := by decide +kernel

/-- A run of the rounds. -/
def runF1s : List (List Lane) := [
  [0x38393a3b3c3d3e3f#64, 0x3031323334353637#64, 0x28292a2b2c2d2e2f#64, 0x2021222324252627#64, 0x5455414b312e3088#64,
   0x18191a1b1c1d1e1f#64, 0x1011121314151617#64, 0x200000#64, 0x90a0b0c0d0e0f10#64, 0x102030405060708#64,
   0x0#64, 0x0#64, 0x1f#64, 0x0#64, 0x0#64,
   0x0#64, 0x8000000000000000#64, 0x0#64, 0x0#64, 0x0#64,
   0x0#64, 0x0#64, 0x0#64, 0x0#64, 0x0#64],
  [0x2c3cb1a5c9c4e8ee#64, 0xb28d762e326656a6#64, 0xbbc1dfc16bde7999#64, 0xf38cab8c26105151#64, 0x8da9c58ec7fcc5a#64,
   0x6e0f96587a2b50c1#64, 0xe1b6c8d2ab7ac791#64, 0x38fed03a2303be40#64, 0x6f891e3e7eaeef87#64, 0x5efe8ec94b9a485f#64,
   0xe286ac88f81f98af#64, 0x9cfddaf59ff4e39c#64, 0x6a9c2a02f5010f49#64, 0xebeb63636b73f7cb#64, 0x1525c2b5da84574c#64,
   0x6a436acfd0f9f1c0#64, 0xb778bdfbc0e7f97c#64, 0xc9515f646db10581#64, 0x3b7f117a718ed93b#64, 0xb596128eb5445d47#64,
   0xd327ef317686c108#64, 0x500ec6d8d6a4a1ef#64, 0xb4b4ea65755d56b5#64, 0xe6f9842e391218f0#64, 0xc189d11b68c9d9a6#64],
  [0x4be47cf109ff7ba4#64, 0xda190146b612a0ed#64, 0x6a66b297e1910698#64, 0xd432209df9fec992#64, 0xe7eb732f3a7816d9#64,
   0x5e6f847b9cbfe971#64, 0x1db50dda13cc570c#64, 0x27d40563ed065ab8#64, 0x5feab0d6d2c56ca0#64, 0x188ab74cb36abfa8#64,
   0xd7af83af1712e1e7#64, 0x2bd20ea043357555#64, 0xf20cf7647e21f7ea#64, 0x58ec3e1d2be52324#64, 0x2b43d8e34ba3c177#64,
   0x54a38f408c88c236#64, 0xd935708c1313b3d7#64, 0x83cabec34bc7d692#64, 0xb1c345dcdf0a5e8a#64, 0xad08b3a3b6cec3e5#64,
   0x75dd55fa46778013#64, 0x3bcac9ccdacd676f#64, 0x65f403c7f2ee18a4#64, 0xb744616858dbd4a0#64, 0xd490e8d55a238d5#64],
  [0xa784618664c0e638#64, 0xd8dc319e4476dcc2#64, 0xc498ea83067f6df8#64, 0x608a4ec181085097#64, 0x298e44a554870fd6#64,
   0x416d0ca262591fed#64, 0xe00f43d99bf1b157#64, 0xc67ae3495f165407#64, 0x4e3ab92de14008b5#64, 0x900006f2c3d80ad8#64,
   0x37c1b7a0b390f004#64, 0x88928b93996993de#64, 0xabc702c30d835741#64, 0x1a7e6f4098af72bf#64, 0x829aa711f4b17196#64,
   0x9c3171c6ddada4f7#64, 0x38a040f734b420ce#64, 0x155258fb3abe856f#64, 0x815c5d761b549356#64, 0x108a07ee8080ed9f#64,
   0x10e0a71390ae1d13#64, 0x9cdf56e48b1d50d7#64, 0x7b53ff9c33c2cdaf#64, 0x2e5a327826b4addc#64, 0x26511d6c1a7b1685#64],
  [0x136458def58f76c#64, 0xf4efea0ff4fcf98c#64, 0x7b00a68958260aec#64, 0xd0129d3062cbc8e5#64, 0x8852f9e8c89b091b#64,
   0x626bc5c6dbc309c2#64, 0xd73f2c85e8d7454c#64, 0x9383bddc08433818#64, 0x7b609d7e114d5e72#64, 0xd60bb7c2e8096f56#64,
   0x1cdece3286a14054#64, 0xc5f839eb07ecfeb9#64, 0x436c24d5a3c99f33#64, 0xb2706d9194b9e224#64, 0x7c425c1b29884be3#64,
   0x204898946841b435#64, 0xb8384824cdf3cc84#64, 0x89be3a6933bc59ec#64, 0xad30ae67d1cdbf37#64, 0x3ac2a5439a3b4316#64,
   0x69cf4f804d4db281#64, 0xc9a442d763a46d14#64, 0xc012fd557068a831#64, 0x2e2e51735ba2192c#64, 0xbbbc09d200ccfc65#64],
  [0x4fb61d0c1c32acef#64, 0x2553f283140820f1#64, 0xcefc4f230ab2ce0d#64, 0xf642cdd8d2c19705#64, 0x7a31f2af97dd42fb#64,
   0x5dc2c7a766010b98#64, 0x44219308d22404e3#64, 0x82f4d913f0819245#64, 0x6a9be3432006874a#64, 0xc5bd5e2b3c93db0#64,
   0xd4dd05100455a23e#64, 0x49a34d1d85faa00#64, 0xf014b131923364d0#64, 0xd3cc53e906a1422e#64, 0x6b14a40e46b59f0c#64,
   0x95f065972703202#64, 0x20c5ccc8e2791132#64, 0xe5cfff50abbf08bd#64, 0xb563bf4ffe982f96#64, 0xbd2a6e520ac50550#64,
   0x2433566267f9d3b1#64, 0xe8ede014c1c35513#64, 0xbee863c37bff9129#64, 0x9e123f985de6120#64, 0x25500b02518b91be#64],
  [0xc5a869d5160f6d29#64, 0xa16486111798d6a4#64, 0xf4ab67c6d85df5cf#64, 0x9f64a8ceb7634619#64, 0x17718455319790c7#64,
   0x8115fde591ff1826#64, 0x165c93ea4fa72c50#64, 0x5ac85b6b384857d4#64, 0xb7ef246ac63cbc82#64, 0x8ceaf933830e4806#64,
   0xb8c02c4c3ea8842c#64, 0x2d84776da9874e3#64, 0xb2fe7e102752740c#64, 0x3692961a28d076b9#64, 0xbec55240def988f#64,
   0xfe5856ba0ae3ec67#64, 0x4750b17b0ded7892#64, 0xfe71c048c47d8cad#64, 0x22b6c0b1ff21ffd2#64, 0x7e627214794243a9#64,
   0x4420fe6e8e46ee6c#64, 0x92435c4249f74407#64, 0x17d7567ccbc268c#64, 0x59a504a7b66e8c44#64, 0xbfbf62471b06cfc0#64],
  [0xc46b0e2d8767c489#64, 0xe261117492ce36bd#64, 0x76a1b4ccc366b784#64, 0xf0917ae3770a8e68#64, 0xc57f8d5dd5092f7a#64,
   0xfc6952847cf332ae#64, 0xe6ae231996f0cb22#64, 0x156a5f9353296075#64, 0xa672f8c8d154c770#64, 0xd5e5efa16774416c#64,
   0x14acf739683b9bc1#64, 0x2b93ebe5a414ce28#64, 0xd2e8770886c9be03#64, 0x62096f121b9ae7d7#64, 0xef4978fb883b558a#64,
   0x8a5589e9bf8799de#64, 0x1a7f0051558a899c#64, 0xe6ea8de2b3be9f2f#64, 0xa39215e8e993a8de#64, 0x2d33709316cbad68#64,
   0x559379e89ddc6e1a#64, 0x69f19d5de5fb6f28#64, 0x6354b2d2f24d573b#64, 0x468bd89c29e3c6b4#64, 0x65fe0b2ecc18bcac#64],
  [0x4483febf675d57bf#64, 0xd121674ec3c36c9e#64, 0x9f425d7ea198a3fe#64, 0x378e3b85b47b662e#64, 0x563c35d1c2b33cbf#64,
   0x4e153bf7faa3d137#64, 0xa6f9929bdbef2d65#64, 0x8130fa8540c6fcd4#64, 0xa61f1127fb21c8d3#64, 0xf36e96d18363cc2e#64,
   0xf06d10561b938ea2#64, 0x8772966690c5877a#64, 0x441388d6297134ba#64, 0xa0e3f50c94fb1a1a#64, 0x42fb94d3bd5d6dfe#64,
   0x9c9a663cd7d6f855#64, 0x893f2b0d6c9b2743#64, 0xa0dae854a6532ad7#64, 0x58bca80234b3cc2f#64, 0xa21d23bba696bf19#64,
   0x265f8149a4172b1#64, 0x5bdd69cda7a3b1ad#64, 0xb7d8b56e146783cb#64, 0x6a566d3ddec7961f#64, 0xdf1001c38eb05e13#64],
  [0xc7f763fa78708b86#64, 0x2bf115732d83cf4#64, 0x5ec8db2b7cb63d48#64, 0xb0ecde0cdd0498fa#64, 0x347de25aede3162#64,
   0x67b4d0e947a4624#64, 0x26c2d217c653a5c3#64, 0x608e28da02d39148#64, 0xc031cf3fa0fafc46#64, 0xf2d4041784822800#64,
   0xd743d8ed68bd4680#64, 0x171bb6182b580748#64, 0xa8cf4c62b39ab05e#64, 0xcf2fd78df640d4f9#64, 0xbd5f0032bf2b702f#64,
   0x2b61bc8b84ed558d#64, 0xa4a2d9c9d39f89bb#64, 0xc0f5c69c0e0639ca#64, 0x5d26419f536b2790#64, 0xc8923d747f1f008e#64,
   0x5a0ed28b64708a0b#64, 0x4a679e257bf6d679#64, 0xbef5599694140f6b#64, 0xd4c95c8cdc22e108#64, 0x941e1372723eed9e#64],
  [0x2853b25cb11faa0c#64, 0x3b4d8c270001414b#64, 0xeafba24dfa4c3c6e#64, 0x61a61570b9e3a171#64, 0xac3366a44c229b0a#64,
   0x898e07ab732c4458#64, 0xe990805d795cfa82#64, 0xe2cbf595e1b20953#64, 0xfb1c4262e29a020d#64, 0xf1ed3b9b1518bceb#64,
   0x5a1b9019aa507755#64, 0x897fa70da53e42f5#64, 0x322205a1782e8a3e#64, 0xaedd7b027e9f206f#64, 0xa3400483518c481#64,
   0x533b20f79fd0d12d#64, 0x35952003dd3b763e#64, 0xe9b80e16b0010cc7#64, 0x33ba164aada6219a#64, 0x6998d19c58b664c1#64,
   0x3f87d69140ac86c3#64, 0x19241e831be9d429#64, 0xa707d51801f5c2b1#64, 0x94255481cefb4bb7#64, 0xf3551438555805a7#64],
  [0x4b4003656fdd1f0a#64, 0x2e0cf91380030ea0#64, 0x64135f030a6f17fd#64, 0xdb74836a7dfba75d#64, 0x8354e76d0c53b336#64,
   0xd24ded63efa65afa#64, 0x2615b99c88a84fcb#64, 0xbc618baed530781b#64, 0x8b460536141c9b4f#64, 0xdbee832732c6ed79#64,
   0xae089a22042ca41f#64, 0x9b2f674d8d30013c#64, 0xa47e44a0e6cc2d8e#64, 0x9d50dcf016b0a854#64, 0x96973517534c737d#64,
   0x72bd9d2e5d9977e6#64, 0xfa0511a8eaab5542#64, 0x35c9eed5b5acc1cf#64, 0x932ea3f0cac86dec#64, 0xc778c76cf0bd4e3e#64,
   0x6ad63a819f66ed4a#64, 0x8b0835dd3afa872b#64, 0xce4d354b9c3ca12f#64, 0xdf4afae36e2798d8#64, 0xc1fbaec6262f200#64],
  [0x1a9e02d6fb4eea72#64, 0x6f1d80ab1a5398b4#64, 0xb77bef005a7f7082#64, 0xb368b8198d814c5c#64, 0x6290dd021dec2071#64,
   0x283ed674d04e0135#64, 0xfca451a2c2d073d2#64, 0x7928c8ba80a8c54d#64, 0x85520303fa86b080#64, 0xd50f46b347409c7c#64,
   0xbcb55f2dc57ae86c#64, 0x17a1592bb7537217#64, 0xf5795700a806bc3d#64, 0xbb47958ed8c98a5c#64, 0x45c9af55426ebfbb#64,
   0x6654da285a05e8fa#64, 0x825ed0b0371e2d19#64, 0x4cdfd7cefbfdbbed#64, 0x578b228d58ee38f9#64, 0xd9587679ee982c99#64,
   0xb1795656da3587cb#64, 0xea0606488e58295d#64, 0x7a2a8424d65a1ae6#64, 0x15853d5589482a1b#64, 0xe35becc8741aede2#64],
  [0x947552a8e73964f#64, 0xdc63a8e2212e7ace#64, 0x1757f8a7ff5e3406#64, 0xa4826324f37b4fab#64, 0x40391f79b56106b5#64,
   0x4f67423eb2f1ca6e#64, 0x81c243d200aeb865#64, 0xa203e16b9d3b0755#64, 0xe785808325c78eb#64, 0x41898eccdf898963#64,
   0x5335c2b1d1a10a2c#64, 0xf3f5bc2abb34a762#64, 0xef957d6fe56a67c5#64, 0x126cd5d864d987ac#64, 0xb653e96bd7b2a3f3#64,
   0x69b8e46d69ff3b0d#64, 0x93b99973a8bc5b67#64, 0x9469789dd9efdd57#64, 0xf1b66c7ce7229f24#64, 0xeb8fe85028d2ff45#64,
   0xb97690509d060c6c#64, 0x612c1b5f7ec3b8c4#64, 0x6b00f29c1d24bfe4#64, 0xc156d87d879199e2#64, 0xe2091f4b1bace254#64],
  [0x9a8aa58ad9cdbb34#64, 0xe1c42034aef0e34d#64, 0xd56f7f19c0457159#64, 0xa4b7555bf545193e#64, 0xc0f7bb216799b832#64,
   0x5cc2597e574f8342#64, 0x38d2942f95206414#64, 0x82ba888e33dbb640#64, 0x50c242103825f7dd#64, 0x44f53449b36eae32#64,
   0xc5852a5c7ffceb92#64, 0x872179cef0f2fa1b#64, 0x737081a705a6564b#64, 0x6ee015f71343b378#64, 0xddc66f564631ea6b#64,
   0x491c438320b6c4b0#64, 0x540f7fae89021178#64, 0x5d1be8b5dee10438#64, 0x4c24cd4db9b3ac12#64, 0xba3b0d4ddcd82487#64,
   0xf2dea614c70ba08e#64, 0x4befd750a43560fa#64, 0x837b8459cb3c0013#64, 0xd84bfaccb182a8fc#64, 0xbfb897cf92f29f9f#64],
  [0xf5231d4b4d5e4f72#64, 0xcf8fa7d118aad1c2#64, 0x9f60037396218a6f#64, 0x195c74f6f0a9c864#64, 0xbbb3d84dda77e057#64,
   0x69b7d0286ebbc1a7#64, 0x702eadb98903a117#64, 0xf905c5fb49d51fce#64, 0x919ea33b416b4329#64, 0x2beb1ef0b12197d7#64,
   0x581045257ba9b989#64, 0xfd2df5b87b801ab7#64, 0xa433ac417ebde7ec#64, 0xdf5e0e674b120fc5#64, 0xfd9eedadf9f6b6ea#64,
   0x958044f05cf0dd69#64, 0x1a9f117026bf99c0#64, 0x91f52092c97e7409#64, 0x6792ae0ac91900dc#64, 0xb879b1d4be5bfa7#64,
   0x30350d1363933154#64, 0x19c6fab051dc56#64, 0xcae51581850f2dd2#64, 0x3649f2fc9eed0f0#64, 0x18a3079d4cd7fb6e#64],
  [0x9adffea963c2318a#64, 0x9ef4d2393c3ad347#64, 0xa21c9afca4ea3ff9#64, 0xfee000c02080e722#64, 0x5b161e3bda7a382e#64,
   0x774e4e83e37fe450#64, 0x53d8dcb31b59af4f#64, 0x6b3344903dbbda15#64, 0x3d98b270ba1337c#64, 0xde974c8c99b0df4a#64,
   0x3175a3cd63bb1951#64, 0x706fef91c32e1d33#64, 0x1916385e0b558078#64, 0x9ed159ffdeddc1ea#64, 0x6e56320fb87bbfaf#64,
   0x77e7900801d5ba6#64, 0x6b0be2af51361c5#64, 0x422ae41f7a5eceda#64, 0x2bfbb8ebf30ad399#64, 0x8666165a00dd3b0#64,
   0xeb6fbe8b8c2a0772#64, 0xe4fe8e7944473330#64, 0xc1bae50e5bfb746e#64, 0x786358b36ec5ab75#64, 0x5a02e3e85478f868#64],
  [0x5e3f8f3cd6309146#64, 0x9c16c80fefe8cbb0#64, 0x595c29b5f04e3435#64, 0xf568627991d543b2#64, 0x7e5c78c9052a0ad4#64,
   0xe679ca44dc2ec08#64, 0x6842be29ee48f1c1#64, 0xa0efb35e3938fef3#64, 0xa9fb47c0d0a24fb4#64, 0x7eda8811f9d88367#64,
   0x5ae439f4a2e1de90#64, 0xa6a64228358e9add#64, 0x6ce5ea91d91d9ff3#64, 0xfffeec137d9e1ef9#64, 0xdda0e17a5efbb35a#64,
   0x1421b3a630d87dbe#64, 0xe0b61b678d72ee04#64, 0x75c6e94618cc738f#64, 0xa9caad1493c63ec6#64, 0x1ac6a12af4e26ed2#64,
   0xe7146fc6c8e17ea3#64, 0xff97d9d43f70c44d#64, 0x1c9925d5f6507fb3#64, 0xf4825885a4524b4b#64, 0xd5e3d15b07c6f4b9#64],
  [0x47558bf6eb64b6c8#64, 0xcf1177999b534598#64, 0x5ed99c50c7b3d44b#64, 0xdcf8ed40d22a38b0#64, 0x487e77b2b4887f15#64,
   0x74d7355e565e31d1#64, 0xc6ad1b0a5b333ef5#64, 0xba25aba5b0eb9f86#64, 0xd7cd1cbda09126b7#64, 0xf6801f63c5f1c972#64,
   0x9b588fa42618f1e3#64, 0x1dbe6d1a79aeb8d5#64, 0xb5c8320fcdea7be6#64, 0xc27181dd4a182717#64, 0xc93d361d760bb6c7#64,
   0xac725944099b635b#64, 0xba594006df6c0e2#64, 0xb71fd507ea182acc#64, 0xab86d44d1ac4e32b#64, 0x4529092fbed8fed3#64,
   0x5b736c3f903eb44d#64, 0xcca9d20f47a017bb#64, 0x49eec7ec4f99ee4f#64, 0x5b91cce89a5a18d3#64, 0x7cbdca2c49135955#64],
  [0xe70ca9b438cdb927#64, 0x274c8c67fbc6faf2#64, 0x6dd7d5a3432c7370#64, 0x9d7290bf31171db6#64, 0x3af1f943b509b8c6#64,
   0xeadecb264671d43c#64, 0xb1848c7c97670457#64, 0x949ce137ac8ebdfe#64, 0xf3cdc17fddba8a32#64, 0xcd09ce3cb5894dac#64,
   0x9aa00ab26a860853#64, 0xab4e0e14ca1e6d47#64, 0x94fcabe7e7623b7a#64, 0xc869e502ef3bf1c9#64, 0x9aba5ed86aa36965#64,
   0x6849dbe51c755889#64, 0x1dbbf3a10dfc72c0#64, 0xab35c61519c1b0d7#64, 0x69c000ecd5ee4b47#64, 0x225adbe8a7e63be2#64,
   0x2bd5ea90ad14027f#64, 0x8b257900b3b6c56#64, 0x8ebb7ac6612b4b66#64, 0xa9c77e1e72830cf8#64, 0x33c1f061fdaa149b#64],
  [0x2f43ff69ccda50e2#64, 0x2669f31f0749426#64, 0x6789571706a9f674#64, 0x2ad89862758909fc#64, 0x220a84e953a1b235#64,
   0xa31e6459320a9d50#64, 0x2a7bb4651f02a159#64, 0x3e70879bd0c53ecd#64, 0x58328c643f7d8a5e#64, 0x85137093312490b5#64,
   0x566921c7fd70b78d#64, 0x6e37b8586b18f2f4#64, 0x5df39910c473d487#64, 0x5303738cfb76ce6d#64, 0xdb19ac3aaf88505f#64,
   0xc2da23224b9feca2#64, 0xdad2a22fcb8ff753#64, 0x495802e405799fdf#64, 0x7ee75b05b2ae2706#64, 0x7d3d94d5d2626535#64,
   0x10242ef7b0b9af7a#64, 0xcd4129b245eeebe8#64, 0x5702f53efbd330c2#64, 0xd5e4f6611db3eea9#64, 0x7d38271579973d08#64],
  [0x70241547c63f00f1#64, 0xbfafcc5103edb3ea#64, 0xb8b6304dfa2ac78b#64, 0x58627d32b027d3e6#64, 0xef2425a133699a1f#64,
   0x4d3edef9b0802722#64, 0x5685efa570b1e3cd#64, 0x6a9658242c35385e#64, 0x501e5c26a9301e5c#64, 0x60ecee0838adbcab#64,
   0x6caeeb7da333272f#64, 0xc502ad951deb44dc#64, 0x4f367111b03943c#64, 0x6e38de38d18219e6#64, 0x52571df893ab755f#64,
   0x64ee5224cdefb94b#64, 0x8c01d23e699ed26#64, 0x79ecfbb0d79da549#64, 0x561499047ed40f98#64, 0x4427b29c252cb0bc#64,
   0x49fbbe96ae6609e1#64, 0xacfd34e9d9fc1c64#64, 0x9d870e4b30899a5#64, 0xf8b036b957930832#64, 0xd0af88158107c531#64],
  [0x293af64858da6965#64, 0x7eddbc7c3a98caca#64, 0xa6bb41fc269e6c08#64, 0xba15ce6aca685e3c#64, 0x56d8c3013fbae859#64,
   0x6e026c1bf648e30b#64, 0x35c67764e63434d2#64, 0x8c92cf51e298cadf#64, 0x1a7d2737a9e16071#64, 0x23a8bd8d8d3aef8e#64,
   0x158214f383d43a6c#64, 0x54ad4387319c84ec#64, 0x380106135c65e00f#64, 0x8df8fe48b926fe16#64, 0xb4356d1383dac38c#64,
   0x9c57d5c89fbc3fef#64, 0xb804a36542a3677e#64, 0xb0e6afe9f56a05d2#64, 0xfaada3f579fe9d70#64, 0x99c45a5a65855203#64,
   0xd919cd007855a47a#64, 0xce3ad74ad8bd0822#64, 0x5b2441b5a866cd4d#64, 0x94b8b0caadf035b5#64, 0x74ede10476841066#64],
  [0xdf47f54909cee59a#64, 0xd2a7ad5d82a4d826#64, 0x296425a81d033d90#64, 0x16bf0062fd6333d9#64, 0x7247f348a9f59c44#64,
   0xa4210f420daa6f86#64, 0x7f65ad5982e5fc01#64, 0x434a3eb85edcf936#64, 0xea07c2c4deab2eda#64, 0x65f4b6b73a05d172#64,
   0x658adf3ab789fea7#64, 0x2c0cec641d27b2bd#64, 0x2f5acf85e499f90#64, 0xad0baf5cabecd1d0#64, 0xf282f1082c5299ca#64,
   0xc5222739e9d9a71f#64, 0xad72a05957d3f693#64, 0xb651a9c338c3d247#64, 0x7c84ebbb2172a87a#64, 0xaee14bc7bc0e7017#64,
   0xac7522171e4a2b#64, 0x405ca78a7a9c1e52#64, 0x9ab42f740e96d844#64, 0x65214e864500d0a0#64, 0x8d3bb1964bb4e838#64],
  [0x206de1b9e5b6f1c5#64, 0xd6f52cba28c518c#64, 0x6c8ec0b0047f35c4#64, 0x753f70ac3d12ec8d#64, 0x79d34d2b41c314fa#64,
   0xc16b382425e73ed5#64, 0x2ae8086c66e83bc5#64, 0xd14317f4f6582653#64, 0xe98edad9378c8ba9#64, 0xaecbeae85ecad9e9#64,
   0x1d536f8130d1c787#64, 0xc09c61e59f0ddebf#64, 0x1ea0972364c1b80d#64, 0x331e544a1df680d4#64, 0x5308fd7f6f126673#64,
   0xdf1db0de9a60af72#64, 0x7e15d61a70bb6c20#64, 0x59e7c1de3bddb3ec#64, 0xa5acd83be20729e8#64, 0x32ac87c3b567b318#64,
   0x7de45fe53d288b7a#64, 0x223166077aa69e71#64, 0x618f664fa8ebc9f1#64, 0x164ee2302c5cbba1#64, 0x4d1b686bc252b2dd#64]]

theorem runF1s_ok : isRun runF1s = true := by decide +kernel

/-- A run of the rounds. -/
def runF5x : List (List Lane) := [
  [0x38393a3b3c3d3e3f#64, 0x3031323334353637#64, 0x28292a2b2c2d2e2f#64, 0x2021222324252627#64, 0x5455414b312e30c1#64,
   0x18191a1b1c1d1e1f#64, 0x1011121314151617#64, 0x0#64, 0x0#64, 0x0#64,
   0x90a0b0c0d0e0f10#64, 0x102030405060708#64, 0x1f#64, 0x0#64, 0x0#64,
   0x0#64, 0x8000000000000000#64, 0x0#64, 0x0#64, 0x0#64,
   0x0#64, 0x0#64, 0x0#64, 0x0#64, 0x0#64],
  [0x4f23b431467641c7#64, 0x2f476b662969602#64, 0x2b4dde9d0b3adfe3#64, 0x3589ee09f71e1057#64, 0x4d4a9d18ce914a8d#64,
   0x5eed46f1690aa0a9#64, 0x4195f89388fb65f9#64, 0xa8dc60bbf3630d40#64, 0xaceb5d3e1ded6e2f#64, 0xdd3eadeac9d88a3a#64,
   0xb016b896a6838c8f#64, 0x5d79c1fb4362999a#64, 0x7295661ee7011f55#64, 0xf7e6696c79fac5f8#64, 0x5404ad80a3580974#64,
   0xa7b4b45386121c8#64, 0x65f60ec6d4a3c196#64, 0x69f178c9419d60ae#64, 0x33cb0ef235827010#64, 0xc70483187dcea149#64,
   0x56ee717b7048544a#64, 0x190141d05ea33ae7#64, 0x1dbcfe78ef6bf4be#64, 0xd6ef223e220e16e4#64, 0x6ce1fd6ddb76e5e4#64],
  [0xc46856bf5ec12243#64, 0xdaf574a2825eb3b5#64, 0x19efb0285e4f0c2c#64, 0xcb902f46658d1dbb#64, 0xe24fde57630bc750#64,
   0xa41c253fd7dfa968#64, 0x97c9ed5650cc608e#64, 0x12ea903dd1214f20#64, 0x2d7b27413e25aac5#64, 0xf7c28873d0adbbeb#64,
   0x694f7f92042a7ad9#64, 0x74a607443bcd5c63#64, 0x96ba8e8c8d4809e3#64, 0x9ed27a7ae764f3ff#64, 0x5b10d3dfb5d276b0#64,
   0xf67fc4b9516314d2#64, 0x9945ca374f494a67#64, 0x8c3a8bb5b8dca3fa#64, 0xead675cde5ca8a25#64, 0xd70cb7fcb39eb175#64,
   0xa7b8efce8b46de46#64, 0xdf648a2bcd68cbf#64, 0x2890513d0ff9a254#64, 0xab9dc110691a1cf9#64, 0xb339328fa4364537#64],
  [0x37b22e777a4386a1#64, 0xac5e8fd5fc21969d#64, 0x6917cacbb0d64331#64, 0x98c4e7afc449363#64, 0xe6fdcf02b8498e38#64,
   0xb31968268a6d5dac#64, 0x11c4ad4397a9f6c3#64, 0xcfa1b2880db0bd2c#64, 0xfde014d6e0f37a4b#64, 0xde6f191a7b22a9ed#64,
   0x5624df49775714af#64, 0x499c540f563846f2#64, 0xaee394ca15cf371e#64, 0x267ad5ac9295c4ff#64, 0x55b2bc484c13df1b#64,
   0x2ce9a30c2ad02a91#64, 0x3474230dca41ff5d#64, 0xe1a790bf7b599d79#64, 0xc8404218ad6023eb#64, 0x3ad398b555de75e5#64,
   0xc5c1c89384042854#64, 0x83b2ba2d22846be4#64, 0x76691a7bc929db91#64, 0x5ffbf54c43d1ceeb#64, 0x96a208ba2754c2e6#64],
  [0x794201792d103d42#64, 0x670fb1d16a15cfa9#64, 0xc8152f32cc5b980c#64, 0x5d4b81fe7a3aab5c#64, 0x377d3523761aa9a9#64,
   0x274c931317a7fc8#64, 0x241caabb9eccc857#64, 0x95e583885a7c9f44#64, 0x65bc2e0c83e21a03#64, 0x13de762355abfd11#64,
   0x61bb7238c62a8855#64, 0xcfcbc80078aaddc1#64, 0x3a5d51b916b684c9#64, 0x7045cce7d61f7c10#64, 0x38bf4832364f29c7#64,
   0xe4f407a18ce1f182#64, 0x5510523a19b4c427#64, 0x2da8894ab2d3e174#64, 0xc3cb3b05d761049e#64, 0x8841a379eeb6ecf3#64,
   0x4861d44601111428#64, 0xff00087410ca7f5#64, 0xe14e913320522c3f#64, 0x3263a9e2720d58db#64, 0x91e38c1e86a0647#64],
  [0x582012ee16a509f1#64, 0x6aaf1e4508ff8e93#64, 0x527a9d92c39de9b9#64, 0xa50ce6983dee08ad#64, 0x810c1f695271b188#64,
   0x84eef448dc3b7473#64, 0x4567f013350c6201#64, 0xe46f00abe4ebb092#64, 0x8a9e7633feeb0d45#64, 0xa3b97c631f3dddfc#64,
   0xec4b57c30c8ea82#64, 0x12394f679c212f40#64, 0x7cade2a1b03f711#64, 0x6981a4af4e2908cf#64, 0x6db6a41108e0e041#64,
   0xfb9a8b1e8e8abc0a#64, 0x58e98c002027e10a#64, 0x13ae0a64e9bc9c94#64, 0x8da039b5fe56e454#64, 0x82c29becbc235979#64,
   0x5b071042c9d5e4fd#64, 0x87721cfc3453d3d9#64, 0xd7a7996688e5231a#64, 0xaa2b35eb8c2888c4#64, 0x1986a7a5fa7a4f57#64],
  [0x4eb19a17fa6df168#64, 0x38fdefcde38b7e06#64, 0xd83fcf240fb32cc#64, 0xe817921928f64f82#64, 0xd3f4fa0e6dc1a548#64,
   0x76c2dafa2601d812#64, 0x524b37d2064270c3#64, 0xccf46eab43ecf6d0#64, 0x8192b8ea5b1598ee#64, 0xbfd69e03c02ec2c3#64,
   0xd70365d21e55c41d#64, 0xc4257ca98e6bf73#64, 0x3625d8dc8879bf54#64, 0xb032d3796eefe00f#64, 0x2a7e959f93b51532#64,
   0xf2368a3a0824eb95#64, 0x693097ab53a64949#64, 0x4eee2c6dcb8d18a9#64, 0x9506d133d754896a#64, 0x4f7736921904efa7#64,
   0xc4c3b6e22a357b7#64, 0x462bc22a51731a9c#64, 0xc8aedc544c8ef356#64, 0xe14003cc3000ad29#64, 0x1a0211e08d58fd18#64],
  [0xc596c97e2d1dd530#64, 0x300ecc8c75745f82#64, 0x9fdbb82543a7bd18#64, 0x8396b6fb96aa1878#64, 0xb498ab9f534caf3b#64,
   0x62a97da3d2d56c94#64, 0x9a1af3a694571339#64, 0x27f814ce4d1b846c#64, 0x232542a16dd27c68#64, 0x342ea195cfa85c7#64,
   0x97a105fd679e5f53#64, 0x2d68a520299cb4f7#64, 0x6ce5d020a44ed5a1#64, 0x11308e025e01d2#64, 0x4cc15d41c5de924d#64,
   0xe2ef08271ed4e715#64, 0x7f07cd6e830b0727#64, 0xb44d64b61e152271#64, 0xb06808c0ecc52871#64, 0x8fb6c41cd06369df#64,
   0xc7f3981376a67923#64, 0x8ce7cb72cb115a47#64, 0x18d24850c9421498#64, 0xad7dbaf4f374b19a#64, 0xfc18ed220d58289a#64],
  [0x41c34a22304d099#64, 0xce490f12a7be89d3#64, 0xb04ef119744befc6#64, 0x63f7fcea069a0f72#64, 0xff9ac1b14d66d3c9#64,
   0x5c32c219d69c7830#64, 0xe516305ce7494f1d#64, 0xd3ec457b9c2e6fcf#64, 0x9569534ce7a641ce#64, 0x43e12770f0d80e31#64,
   0xa5e2394f6b72663#64, 0x7c903c6945274c3#64, 0xf0afba790cc8cdf0#64, 0xad90ccd268655218#64, 0x579cc6bb2a7ed976#64,
   0x92ac951f4cb164fb#64, 0xc6fdf2c4005143a2#64, 0x25d5fe8bcdc11921#64, 0x3a9838db3f9655bd#64, 0x3952c0119e6759c#64,
   0xe440823d83abfc58#64, 0xc6850b3e79144a3a#64, 0xa79bfb9c38c4dd89#64, 0xd8ab210a440ac611#64, 0xbdf821f33dee5bdb#64],
  [0x309128edb1f8fd5#64, 0xd4357eb0edc4894a#64, 0x3c51e5718c524037#64, 0x10c1b7deaedd95ed#64, 0xe36739e07a4043ff#64,
   0x570e2dbb3cdacacf#64, 0x1448bf6edeb31fbb#64, 0x274ce6a8fff61e01#64, 0xe8e73c17f5503d28#64, 0x37c07b346c34db11#64,
   0x10871d0637b81729#64, 0x5fdf54d758a2d221#64, 0x9a3dbb9530062f35#64, 0x9174af7758c65cd2#64, 0xdb59ee3b86ad209e#64,
   0x7f334b4841fcd1fc#64, 0x49525f240044cae3#64, 0x5f7df1ccd8e0221d#64, 0xce454155d61e7c40#64, 0x5222e84411303419#64,
   0xd39ef01a4b1c1230#64, 0x96d5be2d9aa82a07#64, 0x6ab01ad1c59d1826#64, 0xc9f2b17df06ce559#64, 0x67e73aff901f689#64],
  [0xb2e96daf42b1b997#64, 0x80845b5bbc02ea1c#64, 0x4ef8707e3333ce6a#64, 0x590e67b356992cc2#64, 0x247c8a1056146cb0#64,
   0x797d32a57027a0ae#64, 0x769e6a69da0c5709#64, 0x5d3c50f66adb2d0f#64, 0xd9b99b14fc38ecc4#64, 0x58e919b7a1d2db80#64,
   0xfee5902345eaac88#64, 0x288ee1100d024aa6#64, 0x7d9ed5d8d5a5ba34#64, 0x9f8e91622775f4ec#64, 0xbc75270ca8f023be#64,
   0x2ef240ee73fe5aed#64, 0x724fa57966676beb#64, 0x80261af60713bd6a#64, 0x986031b5fcba6ded#64, 0xe1c7df9ca85e4259#64,
   0xffeddea51d465f8d#64, 0x60356f49a305a775#64, 0x47bf3100b380130b#64, 0x6fa3214dbeead235#64, 0x5c9a26bb54059664#64],
  [0x52a877063c898b76#64, 0xd1db88d42e342b2f#64, 0x2abb4b0429a98b27#64, 0xc1d843c7d779db7e#64, 0x3e4322135f592f2f#64,
   0x528bd5ad82732120#64, 0x666ded531835ac3f#64, 0xfd73ce5ce288d508#64, 0x46223d348989f1e3#64, 0x4f30b27f21586b14#64,
   0xdcc9aeeab86d0771#64, 0x48ac2386ed209190#64, 0xa681698cd18e499b#64, 0x83c801765bcbc989#64, 0x9d178ac9e2947eb2#64,
   0x494455a52432989a#64, 0x98226643d1c5b44a#64, 0x9e04f9d15e90fa5d#64, 0x710f5f2b40335e95#64, 0xd3143a2c2304cee4#64,
   0xa258b385e8a9586a#64, 0xc95d887e53c39b5d#64, 0x3fc693c4207d1aad#64, 0x1e50ab95e67697d0#64, 0x16770df538b3e112#64],
  [0xe656af3b7f1d37c#64, 0x80b61f08c1eb40ab#64, 0x3da777b4febf3adf#64, 0x41014eb26c3ad852#64, 0x141156fd84314434#64,
   0xfbd96c78043ed9fe#64, 0x5eb16361be80a96e#64, 0x40239b55efcbcd9f#64, 0x75f2719470350b65#64, 0x8cf06304d74ecf3#64,
   0x257446e7b7bc078#64, 0x735841eb54d30f24#64, 0xb661b928fec2dfba#64, 0x10155c7e632f1b77#64, 0x4b0f7685fc6f5152#64,
   0x5d407e4a01d72a8f#64, 0x713857033fceca9f#64, 0x7f0142ec80433b7b#64, 0x328c0a25cbe678f8#64, 0x4a28d477d9a4f05a#64,
   0x4584d95f8416a1ec#64, 0x285a43c196608596#64, 0xbb478cc88ec2b8e7#64, 0x3dfdd57b98c5dba2#64, 0x5693bcd54749261f#64],
  [0xb975769a9c582fd0#64, 0xa94f31bd9b80fd58#64, 0xe54364a3af4ba1b0#64, 0x8e9ea9618fc77848#64, 0xf04e740db089a8d6#64,
   0xafb872e7ed874700#64, 0x8ceea9d05d8fc465#64, 0x6a386bbe2e97ab28#64, 0x1719506355a03212#64, 0x734d32a08ab2c890#64,
   0xe034b3d49cf0ebf8#64, 0xac72166d7ae4a3f3#64, 0x99fb034f51b54cf4#64, 0x18e816bc5585613#64, 0x1892abfa15bb8a53#64,
   0x9b93c56acf6e0f0c#64, 0xb4da73f50e85293b#64, 0xa66b81bd654dd62a#64, 0x10c268090e536f09#64, 0x40ec904643bf7c1d#64,
   0xe5a5f4fa28ab60c0#64, 0xe957429b56270427#64, 0x431effdf26aab9a6#64, 0xfd8815eaa8c5d31c#64, 0x709845a9b3aa4d30#64],
  [0x5265c1fe8a5fbbf6#64, 0x97b404fabebe9e8f#64, 0x6fccf4189190e625#64, 0xc12d6ed4114005e1#64, 0x168449f5b9894113#64,
   0x53af79dd08988e#64, 0xd5023e98b0547d53#64, 0x965fad8c4bb0f2be#64, 0x72c5fd76e2bdb64c#64, 0x3a3889f6966768c8#64,
   0xc914ad5a68e4e7fb#64, 0x183ff502a15398b5#64, 0x9fb7bb83153970d6#64, 0x3419bfa7ef8d8c2d#64, 0xfa5fae9352648bf2#64,
   0xfd276a8e1cd480ef#64, 0x2a3c11f95e834c7f#64, 0x58c8534863777b09#64, 0xba4571a38480dffa#64, 0x8d41a6466987284c#64,
   0x94c69420285554be#64, 0xd1df9328013a9c76#64, 0xeb7163324f11e156#64, 0x7751570397160e04#64, 0x58d180047e6e6e4a#64],
  [0xb3e2075f15354997#64, 0xd45e6acaaab727d9#64, 0x103bcdbab73b9fff#64, 0x4e94651936d427d6#64, 0x3409917b82267b2d#64,
   0x96ec823fd527cad1#64, 0xb58f67af03147fe#64, 0x4e71d65e3023283c#64, 0x54148e7a502e5269#64, 0x52ea5b39140387f7#64,
   0xdc9918b0266861a1#64, 0x9dbb59e91b405aaa#64, 0xc1b0e3fb5bce857d#64, 0xa24f375063433752#64, 0x3d22cd9680425d8d#64,
   0xbc1055c4255f38cf#64, 0x76ebe049194d7ab5#64, 0x559681b2b171010f#64, 0xb0d9923f0305a7f1#64, 0xa068814d0a06a38#64,
   0xa5f92b985f920c4b#64, 0xc14dc0e5efa95c8#64, 0xf3ba3ca8ace2e827#64, 0x3a270241cd705b45#64, 0x209cfe4433b54086#64],
  [0x133c6083e8a4c98c#64, 0x546f1989db53dfc6#64, 0x2861dcac0411f6c1#64, 0x245d900f1e8d3e2c#64, 0x5d07294d95dda2f4#64,
   0xb9f7deff801f4133#64, 0x79d6ea856abc2c5#64, 0x7ebcdb46794a0546#64, 0x637b58bf3967c4ff#64, 0xb3fb6ba5f1214a60#64,
   0xa788078d65048d0e#64, 0xd66ff6e871e8ff5c#64, 0x98115ffa9cf04f24#64, 0xc51b46b14b6cabd8#64, 0xb0e7686ca3eac21e#64,
   0x5f053b591ef9acd8#64, 0x9b74adc1772018b0#64, 0xa521ffb5f92fc43d#64, 0xa1fb8054636ac9b#64, 0x818bc3242ce6c0b5#64,
   0x3326eaec0db6ed9f#64, 0x9ad7be0c33b15fcf#64, 0x13addbe3f530633f#64, 0x9c35a4715508f418#64, 0x7bdbc6353112d05e#64],
  [0x3bc2cb9f434d9f66#64, 0x5b14513fa7c14010#64, 0xff8b5a287400498#64, 0xf30babd53c66499f#64, 0x21270cb208acab50#64,
   0x6c1f9516b6611206#64, 0x958bb6cc20c644c5#64, 0xaf676c2f4777c1d0#64, 0xd68d146c6a19741#64, 0x6677af29b65e7a61#64,
   0x9b3b03006c945aae#64, 0xefdaaa6924ec9ca0#64, 0x396439993555b6cb#64, 0x569cdbeeb741d1f3#64, 0xa582f151f496f953#64,
   0x86a4afd4067c2251#64, 0xbfc6481f651952b2#64, 0x6798a651c63ad91d#64, 0xa0bdd77fb95407dc#64, 0x43eff3a6440c2cb9#64,
   0x701c339280fd501c#64, 0xee3116798f5008df#64, 0xd565372280917874#64, 0x70b9f16666398b7a#64, 0xa27d7f3ab1a43a2d#64],
  [0x5a7032716fe50769#64, 0x9069afa98b0c4084#64, 0x8bce2a8b2d8d6a45#64, 0x57a890855815a363#64, 0xdaf90ac3acb0eb88#64,
   0xbfcd2f799dc1c620#64, 0x9f31866ba3c643ae#64, 0xc87fd0727073174a#64, 0xdf5fc05b8d03a3f6#64, 0x4ab48540df9ab6b5#64,
   0x2eeec40a94a080aa#64, 0x299d1a8ad48137c8#64, 0x48f681eec1fc7e8c#64, 0xeffb18c48070b443#64, 0xa8e2b353eb6b7fe2#64,
   0x4504826ff12a1c44#64, 0x7318dc0e67beeae9#64, 0x2688f693ad1d60e#64, 0xdc92d425cf48f32c#64, 0xd6d7323cae3eabad#64,
   0xa7a7e2755ab7f5c5#64, 0xcbb177074681584d#64, 0x7943e723d3ad78e#64, 0x491204c920a9a410#64, 0x99cc06ddbe82a3a#64],
  [0xa04d9d7729db3aea#64, 0x9afdaaf98c370980#64, 0x3352f79d19461160#64, 0xe414b1f6ef593c90#64, 0x141a9c5f64612f2c#64,
   0xa70d3e791f2cee11#64, 0xf83fda51b9be3d16#64, 0xa995c24e1e797b3e#64, 0xa8d0a4f7f7647f96#64, 0xf7eef27b923a2345#64,
   0x5cdc0d1143c7d952#64, 0xeac6e5b80a15370c#64, 0xd68569c0c25c6297#64, 0xb2d9fbde09968af6#64, 0xf3de45836811d444#64,
   0x6468026c13be0740#64, 0x38d65f120e8d1b36#64, 0x68560cbbae4ef314#64, 0xb702cbd17a523c8e#64, 0x91efc418a617f5c#64,
   0xf1ce80cda4f582f1#64, 0xb20e17f39a36f3fb#64, 0xbb7e0e0646afcac6#64, 0xa94183fd72acd11c#64, 0xfed87e18fb29b0a5#64],
  [0x4010a74833d27348#64, 0x4d22828d54ab762c#64, 0xae2ca98587efba5a#64, 0x92493ccc571ead38#64, 0xbd068927e514a0b0#64,
   0x71c5f244af5a3acf#64, 0xd573f88178e6aefa#64, 0x75483aa7f6708c45#64, 0xeef392719d4203e#64, 0x133fa436bc4c92a#64,
   0xd6c6573e2a5113bb#64, 0xd9175876bf3d210a#64, 0x50b411c885e095e7#64, 0xa025cf01e3da8e65#64, 0x6250f6a0db0a666e#64,
   0xe0f109251358b3e#64, 0x2814e71455819759#64, 0x81788a43adf4a6ac#64, 0xcf5013b0f903d40b#64, 0xcee914aaaa036e8f#64,
   0xf5ccd3e1886fea76#64, 0xb47045dcd2229035#64, 0xd1f20387ff5902fa#64, 0x53c0b4aeda326bf9#64, 0x9b238505f247651#64],
  [0xe3798f1eba8c11c1#64, 0x45cd76e34ed9972c#64, 0xa11ba4edc35ebc6b#64, 0x9e41c96daea457ea#64, 0x2d4db361af7b60ac#64,
   0x57af39492ff0a1db#64, 0x353ae7a33398865#64, 0x847f303480a7ff8a#64, 0x66f300a2707c8a4#64, 0x29ce4d2b8ef038ad#64,
   0x6a8d2b62eb88840f#64, 0x48ea678fb82607e9#64, 0xde54b3ec30da4#64, 0x5bfb77d9c9ac7255#64, 0xfffc50c910f72b6d#64,
   0x39139660935af3f#64, 0x408d58cf3b6ea3d0#64, 0xcd0f0f3985749d8d#64, 0xe48d4aa0109f2f0e#64, 0x63b6e7e4dffd1a82#64,
   0x584e377a62df4e33#64, 0x2a730432320e6eb4#64, 0x36c60bfcf10aeb05#64, 0xda4adfeecab8deb2#64, 0xda638b03d836a074#64],
  [0xe5c786e915f6ff62#64, 0xb228f1b9fb0a324c#64, 0xa70934fd58820e39#64, 0x27a816358eb19fd6#64, 0xbfa02b18adb18b16#64,
   0x2da8ef433c594327#64, 0x8f9e759e7b5fa47#64, 0xdc94667ce281b08f#64, 0x284aab0818694491#64, 0xd51e1be602bb3ca1#64,
   0xf3101ee9da9e7a54#64, 0x94f94fd2b4e8c2d7#64, 0xcf7e3f234803544c#64, 0x9dca4c27eab4368d#64, 0xcf4e3582b4c7cfc6#64,
   0xa0ab74d3c4569436#64, 0x452da09cf901cfb8#64, 0xba7823d083a13fe5#64, 0xfde3fe50bed30dd2#64, 0x4b85b72270afd8fd#64,
   0x5ead6cbdfffc35f8#64, 0x203ece70c6e89c3c#64, 0x310b584071b4b540#64, 0x9aba533954f1bf6d#64, 0xeadf7794d662aad9#64],
  [0x7f16bccb320a928f#64, 0x37b26ba00a3822b4#64, 0xc98df75b784568a#64, 0x3ce8905725f3664c#64, 0x3daf776686c5e527#64,
   0x2d4fee723012ccbb#64, 0x9dfa47365ed20bed#64, 0x7c65e4f366165dc3#64, 0x5b3bfe9c7eb697#64, 0xe2ba4ae7fffaeb1e#64,
   0x10e26760f6753afa#64, 0x556e59256eddef0b#64, 0x1829f684d1611f60#64, 0x6f74b9794483d2c#64, 0x5831a6143cf7f4c2#64,
   0x8576090ee69395f9#64, 0xb41b2c2b7f6d560a#64, 0x88ba0e7f779238b1#64, 0xd3269c518c2a14d0#64, 0xfaa5cbef8f6aa6c9#64,
   0x4c14aeb118a2fb23#64, 0x325f67bfde9536bc#64, 0xf62996d8769b700b#64, 0xd479ac75ef355aac#64, 0x5b9575ee7e75e96e#64],
  [0x7fb6e5411146f09b#64, 0xab85fc8ecbd0a477#64, 0xffb690da63c6aaf7#64, 0xd03c6bf47f314b20#64, 0x60471baf9112992b#64,
   0xb45bc15c564a6ab9#64, 0x7f3c5ba5c9cc6da3#64, 0x239974cbc5f20351#64, 0x3cf7666f92c0a618#64, 0x7daf9998e798b33d#64,
   0x122aa71e03b113ad#64, 0xc419b9d91b2f470f#64, 0xe7787c3e087730a9#64, 0x2d7fb9c509306bdc#64, 0x11be77a816d06f41#64,
   0x46e51f946cb8b95d#64, 0x3d955a9fb17a7aac#64, 0xe208239f4476c7c0#64, 0xc85710f06c99d9e6#64, 0xb68c56d968c422ee#64,
   0x373f070e8fecded#64, 0xea775090b97a9f08#64, 0xa8090755cff7503#64, 0xb508dab3eca8030f#64, 0x82d704d4df6063a#64]]

theorem runF5x_ok : isRun runF5x = true := by decide +kernel

/-- A run of the rounds. -/
def runF1x : List (List Lane) := [
  [0x38393a3b3c3d3e3f#64, 0x3031323334353637#64, 0x28292a2b2c2d2e2f#64, 0x2021222324252627#64, 0x5455414b312e3089#64,
   0x18191a1b1c1d1e1f#64, 0x1011121314151617#64, 0x84d4b533006c0000#64, 0x0#64, 0x0#64,
   0x90a0b0c0d0e0f10#64, 0x102030405060708#64, 0x1f#64, 0x0#64, 0x0#64,
   0x0#64, 0x8000000000000000#64, 0x0#64, 0x0#64, 0x0#64,
   0x0#64, 0x0#64, 0x0#64, 0x0#64, 0x0#64],
  [0x4f23b43b44544186#64, 0x6d466ace4307e9b#64, 0x2f4dd31d192a4777#64, 0x93e9e389e50e8a81#64, 0xcd4a9d9a5e316a85#64,
   0x6eeb86f86147ebfa#64, 0x4195f99784f727e2#64, 0xa8dc609ffe6f8f08#64, 0x8ce9bc0a30e1ec27#64, 0xdd386debc99d8969#64,
   0x914864da8732acee#64, 0xc54d53b796a98d9#64, 0x1495be1fc608b63f#64, 0xf4b47928796ac5fa#64, 0x70397d88bb680955#64,
   0x8a72dbc4786125e8#64, 0x44571a44f4a3c1b6#64, 0x4c5c20cb239d6888#64, 0xb3cb9ef444827010#64, 0x5780532d0ececd49#64,
   0x5eee536368c8604a#64, 0x5143bb8ac7230ce7#64, 0x3fbc67e8ee0bf4be#64, 0xf4efb32e224e16e4#64, 0x42447cfd5196c3e0#64],
  [0xb723c117c38aadf7#64, 0x8802fa4653e34aee#64, 0xc138eb2d02119a6c#64, 0x870a6c074b47b256#64, 0x7abc41f3f82f4b33#64,
   0x1eee493c7c212e34#64, 0xb6bb184cc20bea0c#64, 0x8132083587a484e2#64, 0x902134353bb1f367#64, 0x67039718280c3f6a#64,
   0x46804b9057a36649#64, 0xde674cb0b2422b3b#64, 0x1afd0dc5399ec267#64, 0x6de563649f932336#64, 0x223e183a56a255aa#64,
   0xb5e1c10b6d4f1b7e#64, 0x84916e1ad5ff11cc#64, 0x1277f06554559aa6#64, 0xebf30fd3dad234fe#64, 0xfaef343dd01988bc#64,
   0xca3f4d0e2185723d#64, 0x7fd3b95cc605a156#64, 0x88ea8faa4847ce4a#64, 0x47b03e0ff4d9f2ab#64, 0xe29f4177e26aad29#64],
  [0x3f6a8c741fd85b8d#64, 0x852e8afbd3b9f96e#64, 0x9cac17639b1b6458#64, 0xbc08e0a2952c554f#64, 0x352478ab843f2525#64,
   0xb829b2ade5889de8#64, 0x6f5bce7acac908a1#64, 0xb40413fc0081f4de#64, 0xf981f19b60f00e2b#64, 0x811f9038756855b5#64,
   0x322da7f9db25b45b#64, 0xa91875154a4ce508#64, 0x93ba8843fe86dbda#64, 0x64a9e2fb9eb5f90c#64, 0xd8a7c758032f2adc#64,
   0x230607ac98e75ca0#64, 0xcd779f64d25005ba#64, 0xa40ca5cbc4c2e33a#64, 0xcf40754be0e0e8f8#64, 0xe6f9f198482d0528#64,
   0xbd1f8073eea1faa4#64, 0xcd0cdc6919692729#64, 0xa0f077fe4006c0ee#64, 0x3b7b9dab7535d950#64, 0xfc5707148a88f248#64],
  [0x1974e8404f2f8212#64, 0x8154a39407c664c4#64, 0x5e225d506408fa57#64, 0x6288907b48131972#64, 0xa8fa352bf2af7a0c#64,
   0x40c87231e17bb098#64, 0xe407827e0182eab#64, 0x18b4d82a9fb5fcdb#64, 0x7056c3223dd92812#64, 0x47380f6244af5404#64,
   0x932276280e73fc83#64, 0x4dd788113969dab7#64, 0xc8351457b0ef641f#64, 0xfd7063ef44a54ec#64, 0xb80a31c99d893652#64,
   0x34af01cfb1368893#64, 0x6576d640c30fcd9e#64, 0x4f38c75bbb00df9f#64, 0x4e0cd05b78752e86#64, 0xc1383671cebd33e7#64,
   0xdf6ba4cefe995f42#64, 0x7ce74c8cee77788e#64, 0xfc8d003daef8ca23#64, 0x7858494ff866e451#64, 0x4609fc1637c88896#64],
  [0x4f41b156f86d8a23#64, 0xce92b192740e9e0c#64, 0x38fe103ee22bf8d8#64, 0xecf8e5ebc59a7d20#64, 0x28277e53c48ddafc#64,
   0x5ac40a91ffeed495#64, 0x5e0ba58c8883bf25#64, 0x23dda0a7710aa5ce#64, 0x365307400255126e#64, 0xae252a7aabd23f2b#64,
   0x94589ef482332207#64, 0xd602e98bc1e8e16d#64, 0x7a8d3e25e86685f0#64, 0xf16c33001eba0ea8#64, 0x9cf14fe58aa22dbf#64,
   0xcd431abbaabc5f1d#64, 0xbdd02726b02319d#64, 0xa53365a65db7d0cf#64, 0x8b68e7d766786b62#64, 0x29703d9c8a413575#64,
   0x74f3c75685aca0eb#64, 0x9df65b8e55632f04#64, 0x9353f9e2e1bd9181#64, 0xc8701091e3b5eb42#64, 0x1f42bd83a0ed7924#64],
  [0xdee56117a90133b0#64, 0xc1f1dc9ce68a3ee3#64, 0x167503dc3e37b3d1#64, 0x1146f2cd47341698#64, 0x9aa6e6cda111099b#64,
   0x448703cdf76bc02b#64, 0xe29b32b8069843d8#64, 0xcd88cfa07b48cc30#64, 0x79b51f401fe9e5e6#64, 0x8063823a2b69338e#64,
   0xb8ca7176807a1c12#64, 0xf4b201b3c7ee1ad9#64, 0xbf9b9a6ea0db8260#64, 0xd66804ab389a2503#64, 0x554d37d23a23c684#64,
   0x9afba36fa8817d4c#64, 0x6966b11d54c78b1b#64, 0xd4169f83c575e067#64, 0xc023732947ce561e#64, 0xf9c26d2598f6db79#64,
   0x6b9d4ea12657bb62#64, 0x9a140b108abef9c7#64, 0x8df77bc67aac52c9#64, 0x8ead1ae3d586f5e5#64, 0xb81e1b95ccca38cd#64],
  [0x194564ef6a1ca7a8#64, 0x75a3081838b4e3b#64, 0x92a7db8ad6f0778e#64, 0x4aba278157102599#64, 0xdfed77d2470273e7#64,
   0x308066b7b8690fb#64, 0xe0af8ea1113f4abf#64, 0xf6757b74b03d8bdf#64, 0x73cc6a3bb67a363f#64, 0xa9094d70a89f9b9b#64,
   0x7f708e804c4f1d0d#64, 0x267f59a84ddb0c6#64, 0xaf509288c5ee8daa#64, 0x987105cb70fcb0ae#64, 0x2b4b3886c32b5#64,
   0xe19439f5d4ed75f6#64, 0x21ef57503d72ded4#64, 0xce627e0fdaf1b4f5#64, 0xcaf07d6f0f024818#64, 0x80c4c4e3b757b78c#64,
   0x24ed3767a84a434c#64, 0x492c44498a1caf01#64, 0xd33662c16aa5ddb4#64, 0xec393b3db6b99c7f#64, 0x8a560f61ac0d94fa#64],
  [0x76968113d81b5db4#64, 0x347a4ac46218e130#64, 0xfc3400cdeab06ba1#64, 0x10bca45e3bb45de3#64, 0x717bdf7515933306#64,
   0x73d0de6752415021#64, 0x75b4006d3bd267fd#64, 0xcd2492e79532646a#64, 0xafa8ada1b916877d#64, 0x8e1345cc92e9ba17#64,
   0x945506698d6a5d54#64, 0x2e05a01952b905da#64, 0xa7f5ab96946c9fe8#64, 0x922ee89a96f7ed57#64, 0x24c4bba897712866#64,
   0xc46f89e30ad501ec#64, 0xd27a2364146589b5#64, 0x1fabf005a675451e#64, 0xdd594db6475fe2d7#64, 0xa9c2218af676b367#64,
   0x860aa75be9fa8520#64, 0x7dae3d6bd7ae2cea#64, 0x53af2b5390bfd670#64, 0x1606cc4f4c7316e4#64, 0x6ab7b69a2406220f#64],
  [0xced0d2248fc028b1#64, 0x1957e1902b279630#64, 0xbde2811906898196#64, 0xbc3539dbd86e048#64, 0x9f555dc0025a5ccf#64,
   0x322ce3ebefbfe4fb#64, 0xabd06cfc1f4e68aa#64, 0xc511c9fcffd50869#64, 0x1f6456b8f102e944#64, 0x2a7f5bce9c9e87fd#64,
   0x2609f26c781cef40#64, 0x7449cc39ee7973d1#64, 0x478ee9da8ed281de#64, 0x4ea74d0928de82a5#64, 0xb8f6e3d760d96b03#64,
   0xd65f8ec6319ab2a7#64, 0x3622c2f2f368990d#64, 0x5575f0733f591162#64, 0x62c3829a6bdb9b3f#64, 0x975d147a2475a065#64,
   0x24b9cff085b4ef07#64, 0xa3787918b5556261#64, 0x5ba5fbf402d8fee0#64, 0xacea85a993b538b4#64, 0x6f6c0c6f07a7f980#64],
  [0xac3d5b752e1f6ca7#64, 0x8fd6661c292494db#64, 0x3db951604d627914#64, 0x7b734360c6f71399#64, 0xd016d4caca9d3888#64,
   0x648b39bce95a40e9#64, 0x5eb5aa042a1e4e35#64, 0xa66f86be781e54c3#64, 0xc5dd23ad6baab94c#64, 0x5f28f1ef94771c00#64,
   0xe42eec833dca6fa8#64, 0xb7a71d96645f93ac#64, 0x5db31d6a7f296a9c#64, 0xf36c2288dfff155b#64, 0xccc93936a7459b0#64,
   0xa276c5056bda98c3#64, 0x68be9a901e0eb681#64, 0x306963082f6ad4f8#64, 0xca78ed875918cfea#64, 0xbefe8ec68c66000c#64,
   0x29140bda58e7996d#64, 0xa342c802cf884346#64, 0x9b5fba487c47f5c5#64, 0xe677b097facca60#64, 0x26a03bf7b01f0e35#64],
  [0xdcf0dbcaca17e4ae#64, 0xcea322feee979165#64, 0x6d154f0b8d97330f#64, 0x8bca37c9f0c548f2#64, 0x5b8cddefd8e8a132#64,
   0x83ee50961415a87c#64, 0xc0f5924631f500b2#64, 0xf2459eac7132e15#64, 0xf40ab9acdbb3cf9#64, 0x64aab258651937ab#64,
   0x219090e1ef9cf8d7#64, 0x297a2958b40b02d6#64, 0xcdae423e16d3ec68#64, 0x13df268ab47e8da3#64, 0x23bbfa065dbea024#64,
   0x7824787cc8a5df0a#64, 0xc7a4beb05f69847c#64, 0xfdffca5185313b21#64, 0x64ea08c206baa374#64, 0x93d4ea6de6351a6a#64,
   0x23fe8e1ec4a91da4#64, 0xe84bea19aeb1c815#64, 0x8b69beddf2c93854#64, 0xf5a191c553417e79#64, 0xe47bdcfdf83bb593#64],
  [0x8497f0780d31c33c#64, 0xd12945ff42dad5f2#64, 0xa2f7137b8e565b9e#64, 0x7c1a92cc7f48b1c5#64, 0x752fa2dda1eb2#64,
   0xca5fda17d83e1f17#64, 0xa15e2c6ba78b8570#64, 0x880d8e181df62b50#64, 0x80d7121e823306a5#64, 0xf072e2ed1fb1550e#64,
   0xb3c93f0d40a56583#64, 0xb5e4cef8b7ec949c#64, 0xa86696b6583902a1#64, 0x42590c42eae79b5f#64, 0x9a84fe9cfdcb6d6e#64,
   0x7bf9ba3602f8919c#64, 0xf33aae8fd136a64d#64, 0x24b88bbf9b45cbc6#64, 0x2953e13b5eb86c80#64, 0x76fa897e40826fff#64,
   0x5ace58eee9b4194a#64, 0x34410266e58fc7fc#64, 0xc0b0ea35977151bd#64, 0xdbb9c79c8879d0d#64, 0xdd351b8315f82871#64],
  [0xd0d82ff760e2793d#64, 0x4756eb0c44ffe367#64, 0xd0ab16b69bb2b962#64, 0x3105b528df99f770#64, 0x274b1a65e5dbbb88#64,
   0xd1dc9bb69a2d6c07#64, 0x847661aaa41c262f#64, 0x2f2ba38a9df475e5#64, 0x68e265f090387010#64, 0xfaf6040a9a564bd6#64,
   0xe04ebc94a6ce6859#64, 0x8c9f8e0225ddf6ef#64, 0xe479d8e3e56f293f#64, 0x6bb3d85dcf1cb11d#64, 0x495bff96c4237e24#64,
   0xe3a90906edd69a61#64, 0xfe9b5b52c11117fc#64, 0xeb97f555c4efbc30#64, 0xf3cb52024a862914#64, 0xacbb021ec93b9a2f#64,
   0xf770be4af2055915#64, 0x1243242723a95be#64, 0x5261905c1af81740#64, 0x7776072c84e7d5fd#64, 0x957e84ac54f09eaa#64],
  [0x85de9b54eaac90a6#64, 0xa05af57db8f889db#64, 0x39e798cd52740a5a#64, 0x9c35fefae4c9f053#64, 0x98d67695e551bfe#64,
   0x88aecfc45c90cf5f#64, 0xedb27abf4c728794#64, 0x7a1825ae64060b09#64, 0xec8fcbe2fe38be11#64, 0xf0e758ec5c60b6f1#64,
   0xec960bb2bb8035c3#64, 0xfa5d5e1d941c4abd#64, 0x33f9b3fad5a79d30#64, 0x91328d50780f9472#64, 0x1bedb123c490a370#64,
   0xa9e59c299bd1ad67#64, 0x976350b1cfd86257#64, 0x284f431efd4a478#64, 0xb0bb97895f7e3263#64, 0xcc977cd128d7429e#64,
   0xaf7a7a1f1e89a669#64, 0x834af584cd70aedc#64, 0x6f641e0a60fe1726#64, 0x31beaa5d056f6d46#64, 0xd226741dee229876#64],
  [0x8ea2ec61b8c0d26b#64, 0x4489c70468a451db#64, 0x30f30b4a87a15f22#64, 0xe1f6a03c862be6cf#64, 0xa1e732d137ec3e02#64,
   0xc0c95764f2b1e548#64, 0xb6b75d6718c5db5a#64, 0x1cdf6462f70c4d1c#64, 0x3a23a3ef5843298#64, 0x94aa6c200627fa3c#64,
   0xb1f52a7bd3cc4d62#64, 0x8655db1cc9e6d6a6#64, 0x5a2ca8b4c8d9635a#64, 0x40d3644ba3c4ce48#64, 0x5085ff95a0164354#64,
   0xc79296e014ea5494#64, 0xca907bb9b80a37a9#64, 0xb4bd365431bfcd71#64, 0x66da7cbe87033c05#64, 0x5c941451016932c2#64,
   0x8caa3d8dd1c72a60#64, 0x21848234dc0d1795#64, 0xdcda1708e9ab0b36#64, 0xf8d22ea057a20ebd#64, 0x7efe95427ba25755#64],
  [0x579fd1f1e8964804#64, 0x5b1c93e47337f750#64, 0x6b38adf066674062#64, 0xf69524a83bce7f1b#64, 0x5b4cf29e1f8f4a87#64,
   0x33466a4167dff925#64, 0x6fb3fcce9e095612#64, 0x4117c9ec98e01d02#64, 0x7bab695e508d54aa#64, 0x234eca761eb7e256#64,
   0xd9ca715ec84997d1#64, 0xb8252f0a46081c77#64, 0x6819143d630b3050#64, 0x5e4c4093aa532e09#64, 0x965f09c4c4bbd7f3#64,
   0xd4f035aa31103745#64, 0x217bbaaab942462c#64, 0xf4dbbc5ed1109228#64, 0xeb1476a38012296f#64, 0x4e66398907a1a756#64,
   0x2b94f6c535ff4e91#64, 0x2045f1b3142de021#64, 0xf9100e82a362e31e#64, 0xa89c953d0902ec8c#64, 0xa7fcd697097155ba#64],
  [0xd77c4db12f63e433#64, 0xa132aa66efab2860#64, 0x95de6ea8c65d9790#64, 0x465f2175fba0ffc0#64, 0xaad813a91ae26cfa#64,
   0x729bfe8226e77f7#64, 0x7cfd019746c9712b#64, 0x21a7e8f17d642866#64, 0x2021db1eff92340b#64, 0x527e3b1862b64f12#64,
   0xf002b2dde557cf5#64, 0x35c7a84bf7e0a279#64, 0x9fb59c60a61ce4d8#64, 0x77e447cc7598654b#64, 0xaa9008b9f4985fe6#64,
   0x9a8b4beca31f9dff#64, 0x12a40926fe88a053#64, 0xa42d8f23cccd2e34#64, 0x1d4aa2a006d92c5d#64, 0x178ccee9f9f07beb#64,
   0x531e4e8ff8e5e27f#64, 0xd914e91b79152b41#64, 0xa6f0f26725fa1687#64, 0xe3c3fd5963fe3735#64, 0x7f24572623ea1427#64],
  [0x2f027b69cf435fa1#64, 0xfa68a76df9379622#64, 0xc6ed4a11f5f99999#64, 0xe2e9de9c43083c46#64, 0xd33dc908901fcf29#64,
   0xeb4963bdd5c34261#64, 0x5e17772dbb980e86#64, 0x967e5f0acd6afb95#64, 0xfefb0bdcc2796191#64, 0xdffbeeebb2b7cd28#64,
   0xbbe97d55ba09efd7#64, 0xeb7621f40a484a6#64, 0xbf502c42e3470aa6#64, 0x143599fd20e525c6#64, 0xc50ef29607f0bbe4#64,
   0x567bcfcb90d19b8e#64, 0x286c4777ac4c3615#64, 0xbe597fd4bbcf89e6#64, 0x944c0e669ba2bed5#64, 0x4bfeffd86164073#64,
   0xfa51e274ccbe0358#64, 0x4fa64f2d3e911ebf#64, 0xb966b224272cd758#64, 0xe6dcebee41f8489f#64, 0x76f5eb5f540ce70a#64],
  [0x6f94de8c9bacc846#64, 0xc84e7c07c640e1a#64, 0xf19471b8ee15e474#64, 0x26064802af887683#64, 0xb487d4c1cb74be45#64,
   0x2fef7774b7edc889#64, 0x7e3a2a59f7c31ec5#64, 0x83568e43273044f4#64, 0xa89535752b127bc9#64, 0x80316340200cdaac#64,
   0x83202816407c3881#64, 0x8c29c86a887cc0ab#64, 0xf132e41c1553dd9d#64, 0xf8c4b1061133ab5d#64, 0x1a6db8295a57ad33#64,
   0x99c68a79a75cfa1#64, 0x720378ceec182518#64, 0xab2dcd741a093072#64, 0x4b5d264150e8d79a#64, 0x803a37f4cc606b53#64,
   0x5ee0369fb46ca623#64, 0x58b801cdc525e5b9#64, 0xf977270c54c5ae13#64, 0xb77886757c5ca2ac#64, 0x374f382579752049#64],
  [0x8d227e1e185a5943#64, 0xac1e00f4ad9f0c1b#64, 0x693a4887c20b7a68#64, 0xa19962f3e6b73f5b#64, 0x9a6e1188151d655c#64,
   0x67727167e05bd482#64, 0x2ad0f51c81c200e3#64, 0x1784dc384d57dd45#64, 0x6605a1af24c8f9ef#64, 0xafb674f6e0832359#64,
   0x67f8c6d2366b565e#64, 0xe76a8b7fce7713b2#64, 0xef0c7a93401470d9#64, 0x44003de31751e926#64, 0xbc199e65dc3534db#64,
   0x49f10febfcf3c018#64, 0xf1b31e63a3b8ebcc#64, 0x2e8201a9addaf8e9#64, 0xb227a16aa36375cb#64, 0x71533e7719eebd82#64,
   0x8d1df16ccd971489#64, 0x9cb421c2d95af34a#64, 0x384ea55e20e46213#64, 0x68e9510b100691f#64, 0xad08f41089992077#64],
  [0x717e052730172961#64, 0x4d1746577ae2a3#64, 0x64ade44c247970be#64, 0xa8ce949142677461#64, 0x5c222ee20623042f#64,
   0x4475a8dd29d023ed#64, 0x75cde0e6b2a8bf#64, 0x7923a621f17d7709#64, 0x5bfcf6016f960f8e#64, 0x69d8db1ca6f6407a#64,
   0x5700587d906ba633#64, 0x3f90e256c26f4989#64, 0x832828bbbcbb932a#64, 0x3892abb09380e8c4#64, 0x9f7366d91ef0649#64,
   0xe9e6f68475ec1d29#64, 0xa37b0a12b2280742#64, 0x4d8716ef641acf59#64, 0xcaca7f844daab625#64, 0x473bc5afb880edbc#64,
   0xa2f46706a5033a88#64, 0x17e431c6cfea03bc#64, 0xb23ec9ec529d75f4#64, 0x7c8df4066e6fb261#64, 0x35330da2c8691852#64],
  [0x115e9fbec5c1481#64, 0x17de1e954e24dbaa#64, 0xbd9466de8d36d04d#64, 0xa5a7269fb7286bbf#64, 0xb72aafd2b66026a1#64,
   0xe9fda2593c5d2b47#64, 0x1b4d9c5d92b362d6#64, 0x7b02cdae67d0f9b8#64, 0xfba08b01f1ba3ac4#64, 0x2a58f5f5ae726b18#64,
   0x56c01e91411a6bab#64, 0x3ac910b48e334e6a#64, 0xb39edf3a2d180e07#64, 0xbadb1606d36ceeea#64, 0x8b4be04a12f26e7d#64,
   0xc26ec43fd18e3262#64, 0x4cd9a48bc0ee501a#64, 0x6e3774c1fefb3f12#64, 0x80f2ca2737b13bf#64, 0xb910b0d6efd2b066#64,
   0x8715919a455b341a#64, 0xac5b64ca7ef900a7#64, 0x7e436d97b15f31d5#64, 0xef5d19685feea011#64, 0xdb4a9d849367d3ae#64],
  [0xb142dbaf5bee0e58#64, 0x862af2cb663f8a78#64, 0xe9329b12d0231c8b#64, 0xa042a3ec1350a6cf#64, 0x829688643aefabbc#64,
   0x8d35aa8a6383c6df#64, 0x2ab5495c3e496f35#64, 0x6d692eeed16066c4#64, 0x4201a7a64dc41cad#64, 0x35708435f5ab60c0#64,
   0x4e4b8753493f72a#64, 0x81f04dee4c41a92e#64, 0x4a2f392f466bc9b8#64, 0x7cbfa80d37a0f6ec#64, 0x3a7bec2ea445735a#64,
   0xe92c92598f005521#64, 0x22f6d1c142aa9a09#64, 0xab6a287d2f20542d#64, 0x5d28a86ae063defd#64, 0x2ab0a7d80ad21ed1#64,
   0x19547a0a84e1c1f6#64, 0x8ca34fe47b82c1e4#64, 0x563bd3fb5b79b52#64, 0x706e70377b3e2e79#64, 0x9369fc719f06276b#64],
  [0x3f52bd90774d148c#64, 0x411df0ae659743a2#64, 0xd324d731f8f303c#64, 0x4bb8aef5e5aa3b00#64, 0x721e1afe33d76463#64,
   0x97124d93fa89e0cd#64, 0x6b98fad8dbcd434b#64, 0xb2871a7e84418d59#64, 0x7a1c2d49c87c3f9d#64, 0x1ca535e2ceff6f9b#64,
   0x3e7389c724553029#64, 0xd57b25222f167fe2#64, 0x632f691b81e0161c#64, 0xc4f6852084d53e2d#64, 0x418a029b6deea52#64,
   0x474cf00a1ea6d5d0#64, 0x2686c5ddec4e3bdc#64, 0xc0fb3c881ed1a66#64, 0x520f337609dff230#64, 0xf9fa9fffeb03205d#64,
   0x21786d6c4b2cdc8#64, 0x58967bd6fd248e62#64, 0x9c4e48d0de11904#64, 0xd6e1417af983fe93#64, 0x9e690f33168a6e0b#64]]

theorem runF1x_ok : isRun runF1x = true := by decide +kernel

theorem keccakBytes_run (t : List (List Lane)) (b : List Byte) (h : isRun t = true)
    (hb : ((List.range 25).map fun i => laneOf ((b.drop (8 * i)).take 8)) = t.getD 0 []) :
    keccakBytes b = (t.getD 24 []).flatMap bytesOf := by
  rw [keccakBytes, hb, keccak_of_run t h]

theorem f5star_one (F : Perm) (o k r : List Byte) (n : Nat) (i j : Byte) (h : instKey n = some i)
    (hj : 0xc0#8 + i = j) :
    tuakF5star F 1 o k n r = some (revCopy ((F (tuakBuf o j r zero16 zero16 k n)).drop 96) 6) := by
  simp [tuakF5star, tuakCore, h, hj]

theorem f1star_one (F : Perm) (o k r s a : List Byte) (n : Nat) (i j : Byte) (h : instKey n = some i)
    (hj : 0x80#8 ||| 0x08#8 ||| i = j) :
    tuakF1star F 1 o k n r s a 8 = some (revCopy (F (tuakBuf o j r a s k n)) 8) := by
  simp only [tuakF1star, tuakCore, instMac, h, hj, Option.bind_eq_bind, Option.bind_some]
  rfl

/-- K of 16 bytes. -/
def exK : List Byte := [0x01#8, 0x02#8, 0x03#8, 0x04#8, 0x05#8, 0x06#8, 0x07#8, 0x08#8, 0x09#8, 0x0a#8, 0x0b#8, 0x0c#8, 0x0d#8, 0x0e#8, 0x0f#8, 0x10#8]
/-- TOPc. -/
def exTopc : List Byte := [0x20#8, 0x21#8, 0x22#8, 0x23#8, 0x24#8, 0x25#8, 0x26#8, 0x27#8, 0x28#8, 0x29#8, 0x2a#8, 0x2b#8, 0x2c#8, 0x2d#8, 0x2e#8, 0x2f#8, 0x30#8, 0x31#8, 0x32#8, 0x33#8, 0x34#8, 0x35#8, 0x36#8, 0x37#8, 0x38#8, 0x39#8, 0x3a#8, 0x3b#8, 0x3c#8, 0x3d#8, 0x3e#8, 0x3f#8]
/-- RAND. -/
def exRand : List Byte := [0x10#8, 0x11#8, 0x12#8, 0x13#8, 0x14#8, 0x15#8, 0x16#8, 0x17#8, 0x18#8, 0x19#8, 0x1a#8, 0x1b#8, 0x1c#8, 0x1d#8, 0x1e#8, 0x1f#8]
/-- SQN of the USIM. -/
def exSqn : List Byte := [0x00#8, 0x00#8, 0x00#8, 0x00#8, 0x00#8, 0x20#8]

theorem exF5s : tuakF5star keccakBytes 1 exTopc (exK ++ List.replicate 16 0#8) 16 exRand =
    some [0xf8#8, 0xea#8, 0xbd#8, 0x44#8, 0x30#8, 0xe5#8] := by
  have h := keccakBytes_run runF5s (tuakBuf exTopc 0xc0#8 exRand zero16 zero16 (exK ++ List.replicate 16 0#8) 16)
    runF5s_ok (by decide +kernel)
  rw [f5star_one keccakBytes _ _ _ 16 0#8 0xc0#8 rfl rfl, h]
  decide +kernel

theorem exF1s : tuakF1star keccakBytes 1 exTopc (exK ++ List.replicate 16 0#8) 16 exRand exSqn [0#8, 0#8] 8 =
    some [0x20#8, 0x6d#8, 0xe1#8, 0xb9#8, 0xe5#8, 0xb6#8, 0xf1#8, 0xc5#8] := by
  have h := keccakBytes_run runF1s (tuakBuf exTopc 0x88#8 exRand [0#8, 0#8] exSqn (exK ++ List.replicate 16 0#8) 16)
    runF1s_ok (by decide +kernel)
  rw [f1star_one keccakBytes _ _ _ _ _ 16 0#8 0x88#8 rfl rfl, h]
  decide +kernel

theorem exF5x : tuakF5star keccakBytes 1 exTopc (exK ++ List.replicate 16 0#8) 32 exRand =
    some [0x7c#8, 0x3e#8, 0x08#8, 0x77#8, 0x30#8, 0xa9#8] := by
  have h := keccakBytes_run runF5x (tuakBuf exTopc 0xc1#8 exRand zero16 zero16 (exK ++ List.replicate 16 0#8) 32)
    runF5x_ok (by decide +kernel)
  rw [f5star_one keccakBytes _ _ _ 32 1#8 0xc1#8 rfl rfl, h]
  decide +kernel

theorem exF1x : tuakF1star keccakBytes 1 exTopc (exK ++ List.replicate 16 0#8) 32 exRand
    [0x84#8, 0xd4#8, 0xb5#8, 0x33#8, 0x00#8, 0x6c#8] [0#8, 0#8] 8 =
    some [0x3f#8, 0x52#8, 0xbd#8, 0x90#8, 0x77#8, 0x4d#8, 0x14#8, 0x8c#8] := by
  have h := keccakBytes_run runF1x (tuakBuf exTopc 0x89#8 exRand [0#8, 0#8] [0x84#8, 0xd4#8, 0xb5#8, 0x33#8, 0x00#8, 0x6c#8] (exK ++ List.replicate 16 0#8) 32)
    runF1x_ok (by decide +kernel)
  rw [f1star_one keccakBytes _ _ _ _ _ 32 1#8 0x89#8 rfl rfl, h]
  decide +kernel

/-- A subscriber with a K of 16 bytes. -/
def exAud : Aud :=
  { type := .umts, opc := exTopc, opcLen := 32, k := exK ++ List.replicate 16 0#8, kLen := 16, amf := [0#8, 0#8],
    sqn := 0#64, opcIsOp := false, indBitlen := 5, ind := 0#32, sqnMs := 0#64, ki := [] }

theorem exAud_ok : exAud.Tuak := ⟨by decide, by decide, rfl, .inl rfl, rfl⟩

theorem auts_of_parts (A : Aka) (hA : A.Wf) (s r x m : List Byte) (hs : s.length = 6) (h5 : A.f5s r = x)
    (h1 : A.f1s s [0#8, 0#8] r = m) : ∃ autn, A.usim s r autn = .syncFailure (bx s x ++ m) := by
  refine ⟨A.autn s [0#8, 0#8] r, ?_⟩
  rw [Aka.usim_genuine hA s [0#8, 0#8] r s hs rfl, if_pos (Nat.le_refl _), Aka.auts, h5, h1]

theorem exAuts (m : Nat) : ∃ autn,
    (tuak keccakNum 1 exTopc ((exK ++ List.replicate 16 0#8).take 16) m).usim exSqn exRand autn = .syncFailure
      (bx exSqn [0xf8#8, 0xea#8, 0xbd#8, 0x44#8, 0x30#8, 0xe5#8] ++
        [0x20#8, 0x6d#8, 0xe1#8, 0xb9#8, 0xe5#8, 0xb6#8, 0xf1#8, 0xc5#8]) := by
  have hz : TuakSizes exTopc (exK ++ List.replicate 16 0#8) 16 := ⟨by decide, .inl rfl, by decide⟩
  have hw := tuak_wf keccakNum 1 exTopc ((exK ++ List.replicate 16 0#8).take 16) m
  have f5 := tuakF5star_spec keccakBytes keccakNum keccak_computes 1 m exTopc _ exRand 16 hz (by decide)
  have f1 := (tuakF1_spec keccakBytes keccakNum keccak_computes 1 m exTopc _ exRand exSqn [0#8, 0#8] 16 hz
    (by decide) (by decide) rfl).2
  rw [exF5s] at f5
  rw [exF1s] at f1
  generalize tuak keccakNum 1 exTopc ((exK ++ List.replicate 16 0#8).take 16) m = A at hw f5 f1 ⊢
  exact auts_of_parts A hw _ _ _ _ (by decide) (Option.some.inj f5).symm (Option.some.inj f1).symm

theorem exRefused (F : Perm) (v : Vec) (rand2 : List Byte)
    (h5 : tuakF5star F 1 exTopc (exK ++ List.replicate 16 0#8) 32 exRand = some [0x7c#8, 0x3e#8, 0x08#8, 0x77#8, 0x30#8, 0xa9#8])
    (h1 : tuakF1star F 1 exTopc (exK ++ List.replicate 16 0#8) 32 exRand
      [0x84#8, 0xd4#8, 0xb5#8, 0x33#8, 0x00#8, 0x6c#8] [0#8, 0#8] 8 =
      some [0x3f#8, 0x52#8, 0xbd#8, 0x90#8, 0x77#8, 0x4d#8, 0x14#8, 0x8c#8]) :
    osmoAuthGenVecAuts2 (some (tuakGenVecAuts F 1)) v exAud
      (bx exSqn [0xf8#8, 0xea#8, 0xbd#8, 0x44#8, 0x30#8, 0xe5#8] ++
        [0x20#8, 0x6d#8, 0xe1#8, 0xb9#8, 0xe5#8, 0xb6#8, 0xf1#8, 0xc5#8]) exRand rand2 = some (-1, v, exAud) := by
  have hb : bx exSqn [0xf8#8, 0xea#8, 0xbd#8, 0x44#8, 0x30#8, 0xe5#8] ++ [0x20#8, 0x6d#8, 0xe1#8, 0xb9#8, 0xe5#8, 0xb6#8, 0xf1#8, 0xc5#8] =
    [0xf8#8, 0xea#8, 0xbd#8, 0x44#8, 0x30#8, 0xc5#8, 0x20#8, 0x6d#8, 0xe1#8, 0xb9#8, 0xe5#8, 0xb6#8, 0xf1#8, 0xc5#8] := by decide
  have hx : xorN [0xf8#8, 0xea#8, 0xbd#8, 0x44#8, 0x30#8, 0xc5#8, 0x20#8, 0x6d#8, 0xe1#8, 0xb9#8, 0xe5#8, 0xb6#8, 0xf1#8, 0xc5#8]
    [0x7c#8, 0x3e#8, 0x08#8, 0x77#8, 0x30#8, 0xa9#8] 6 = [0x84#8, 0xd4#8, 0xb5#8, 0x33#8, 0x00#8, 0x6c#8] := by decide
  have hn : tuakGenVecAuts F 1 v exAud
      [0xf8#8, 0xea#8, 0xbd#8, 0x44#8, 0x30#8, 0xc5#8, 0x20#8, 0x6d#8, 0xe1#8, 0xb9#8, 0xe5#8, 0xb6#8, 0xf1#8, 0xc5#8] exRand rand2 =
      some (-1, v, exAud) := by
    rw [tuakGenVecAuts, if_neg (by decide), if_neg (by decide)]
    have ho : tuakOpcIfNeeded F 1 exAud = some exTopc := if_neg (by decide)
    have hkk : exAud.k = exK ++ List.replicate 16 0#8 := rfl
    simp only [ho, hkk, tuakAuts, h5, hx, h1]
    rw [if_pos (by decide)]
  rw [hb, osmoAuthGenVecAuts2]
  simp only [hn]
  rfl

/-- **With a K of 16 bytes resynchronisation fails**: the USIM of `exAud` has
seen SQN 32, gets a genuine AUTN with SQN 32 again, asks for resynchronisation,
and its AUTS is refused (`tuak_gen_vec_auts` computes with a K of 32 bytes). -/
theorem tuak_resync_counterexample (v : Vec) (rand2 : List Byte) :
    ∃ autn auts,
      (tuak keccakNum 1 (exAud.topcOf keccakNum 1) exAud.tuakKey v.resLen).usim exSqn exRand autn = .syncFailure auts ∧
      osmoAuthGenVecAuts2 (some (tuakGenVecAuts keccakBytes 1)) v exAud auts exRand rand2 = some (-1, v, exAud) := by
  have ht : exAud.topcOf keccakNum 1 = exTopc := if_neg (by decide)
  have hk : exAud.tuakKey = (exK ++ List.replicate 16 0#8).take 16 := rfl
  obtain ⟨autn, h⟩ := exAuts v.resLen
  rw [ht, hk]
  exact ⟨autn, _, h, exRefused keccakBytes v rand2 exF5x exF1x⟩

end Verif.Auth
