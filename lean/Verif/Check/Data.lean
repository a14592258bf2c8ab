import Verif.Model.Session
import Verif.Model.SeedSeq
import Verif.Model.Squares
import Verif.Model.BlockCtr
import Verif.Model.CtrMode
import Verif.Model.ChaCha

/-! Validation of the model against the project's own test data. These are tests, not proofs of a property: the first
outputs of each generator in randomgen/tests/data/*-testset-1.csv and -testset-2.csv (read by
randomgen/tests/test_direct.py), computed by the model from the integer seed through `SeedSequence`, the seeding function
and the draw function, by kernel evaluation. -/

namespace Verif.Check
open XorLinear

/-- The first `n` outputs. -/
def outs {σ : Type} {w : Nat} (nx : σ → BitVec w × σ) : σ → Nat → List Nat
  | _, 0 => []
  | s, n + 1 => let r := nx s; r.1.toNat :: outs nx r.2 n
/-- The same for a draw that can be undefined. -/
def outsO {σ : Type} {w : Nat} (nx : σ → Option (BitVec w × σ)) : σ → Nat → List Nat
  | _, 0 => []
  | s, n + 1 => match nx s with | none => [] | some r => r.1.toNat :: outsO nx r.2 n
/-- The pool of `SeedSequence(s)`. -/
def pool (s : Nat) : List U32 := match SeedSeq.mk (.int s) [] 4 0 with | .ok q => q.pool | .error _ => []
/-- Words of `generate_state`. -/
def g64 (s n : Nat) (i : Nat) : U64 := (SeedSeq.generate64 (pool s) n).getD i 0
def g32 (s n : Nat) (i : Nat) : U32 := (SeedSeq.generate32 (pool s) n).getD i 0
/-- The integer with these words. -/
def big (s n : Nat) : Nat := (SeedSeq.generate64 (pool s) n).foldr (fun x a => x.toNat + 2 ^ 64 * a) 0
/-- `Squares(s)`. -/
def sqStart (s : Nat) : Squares :=
  match (samplerInit (SeedSeq.generate64 (pool s)) 10).bind fun q => generateKey (SeedSeq.generate64 (pool s)) 1000 q with
  | .ok r => ⟨r.1, 0⟩
  | .error _ => ⟨0, 0⟩

/-- xoshiro256-testset-1.csv -/
example :
    outs xosh256Next (xo256View (xoshReseed (g64 0xdeadbeaf 4) ⟨Vector.replicate 4 0, 0, 0⟩)).core 16 =
      [0xc41249470d6076a0, 0xfe08d0d48bc91abb, 0x680aaf1117d268cf, 0x49f953bf05427a21,
       0xdd0c7cb8e6387e04, 0xb28d769a79e32e53, 0x794928255683344b, 0x630d4d45e701ffff,
       0x7c4584fdc37d3f93, 0xef4414e973d216a0, 0x4434dde2e33a401, 0x44e1e01d6aed9399,
       0xec6ce5db52abb90, 0x8e498ffd606d78e1, 0x87ef7af8581634e9, 0x12485ae17a1811bc] := by decide +kernel
/-- xoshiro256-testset-2.csv -/
example :
    outs xosh256Next (xo256View (xoshReseed (g64 0x0 4) ⟨Vector.replicate 4 0, 0, 0⟩)).core 16 =
      [0xfacc4ce7fedf6c15, 0xab4fa82cda018188, 0x3e023d3eeebfd20e, 0x64f62b3c9f4d93ac,
       0xa70828cde1c403dd, 0xe1c8932fd43a50d9, 0xd04cb9b632c3038d, 0x9854bcb597852a4f,
       0xa63e2f53fa6b10ca, 0xce6975628fbea6b3, 0x8f8665d2481bcad7, 0xdeea83575d6385c2,
       0xa67c8f59dd9f2d56, 0x6d61a157e0bf5ac4, 0xdfd41b4eb6134262, 0x4a917d218706b3c9] := by decide +kernel
/-- xoshiro512-testset-1.csv -/
example :
    outs xosh512Next (xo512View (xoshReseed (g64 0xdeadbeaf 8) ⟨Vector.replicate 8 0, 0, 0⟩)).core 16 =
      [0xc41249470d6076a0, 0xfe08d0d48bc91abb, 0x94a399e98a024821, 0xd1bdb1fc1712a3c3,
       0xd4834e0d7a3c64a6, 0xf016c05448d1af41, 0x5aa7f03cca2563, 0x2c9f10ac9753912c,
       0x48c933dfa528ff7e, 0x1e473355c502114b, 0xc700af9386192381, 0x2b4ca6d842862495,
       0x68795d7b88b82364, 0xe6da07dd99a7be27, 0x1358b5b0d45f9a48, 0xb96ba34b1eb83ecb] := by decide +kernel
/-- xoshiro512-testset-2.csv -/
example :
    outs xosh512Next (xo512View (xoshReseed (g64 0x0 8) ⟨Vector.replicate 8 0, 0, 0⟩)).core 16 =
      [0xfacc4ce7fedf6c15, 0xab4fa82cda018188, 0xd14d61cb022abdf4, 0x1bbb3c1a128ddc00,
       0x43a0526df638bc2, 0x31434c7b20c5d4ea, 0x3f3c3620a03e7a97, 0x618f305a001c5c71,
       0x83c921c3443186aa, 0xa86f1735b06d2f0f, 0x438add392c4099b4, 0x9b66a89f90a905b2,
       0x95afcde4593dfbc9, 0x404776f939d3c24, 0x941c1fd99888abba, 0xdb1c8838b4226bf1] := by decide +kernel
/-- xoroshiro128-testset-1.csv -/
example :
    outs (xoroNext false) (xoroView (xoroReseed (g64 0xdeadbeaf 4) ⟨Vector.replicate 2 0, 0, 0, false, false⟩)).core 16 =
      [0x9094e6ef9f5bbec1, 0xcfb766fa7591ec1a, 0x3d73491a89a7dcd7, 0x31b2f217a8c79ee9,
       0x45e8d434fa786155, 0x77b9064395a96182, 0x9aebd6611cee4b81, 0xe175bb66361a45f5,
       0x3ae40ff3e8304ba, 0x2f79e664a54ecbc6, 0x3ae47f804b2395f4, 0x176c5e7df7d05fde,
       0xd8091d0e41318a74, 0xd2194a04ea17b0d4, 0x3a7089d84b1a8504, 0x36629314a1d2193b] := by decide +kernel
/-- xoroshiro128-testset-2.csv -/
example :
    outs (xoroNext false) (xoroView (xoroReseed (g64 0x0 4) ⟨Vector.replicate 2 0, 0, 0, false, false⟩)).core 16 =
      [0x87213c01dd663307, 0xb54e39eefbc06dd3, 0xa9160a35cfb8c227, 0x1369555e185b5379,
       0x132b5962efe98517, 0xa6e98a6e2add272a, 0x6af61407a9447ed, 0xa140732b8641c5e1,
       0xc453bf1555e69e08, 0x33ab085b75511fac, 0x53fc6a323f7652cd, 0xd2b129b71bb64c30,
       0xcc5f8662c606d802, 0xb94f20558069b84a, 0x7e24cf1534a6e632, 0xfc8af41db51d8f9b] := by decide +kernel
/-- xoroshiro128plusplus-testset-1.csv -/
example :
    outs (xoroNext true) (xoroView (xoroReseed (g64 0xdeadbeaf 4) ⟨Vector.replicate 2 0, 0, 0, true, true⟩)).core 16 =
      [0x1e10691b529a0373, 0xb2897430732ab86, 0xf2efb28fb579fc71, 0x4b80809feaf87dda,
       0x5c7587a85cca02a3, 0xaa4dea506de9d22c, 0xf03bd44a00472242, 0x230e1e1ec5017175,
       0xf45bb0f2eb54c545, 0xa7a91b6e4ca43d6d, 0xba6949672ccc9065, 0x53465c784ef13bda,
       0x879f45d22d5e1097, 0xcc39c985c66a8da, 0xf90914272617ab89, 0xd75d70fac9fe8ccc] := by decide +kernel
/-- xoroshiro128plusplus-testset-2.csv -/
example :
    outs (xoroNext true) (xoroView (xoroReseed (g64 0x0 4) ⟨Vector.replicate 2 0, 0, 0, true, true⟩)).core 16 =
      [0x533092b417038700, 0xe0ae5e8cca6852dc, 0xf07cd036f4b0e5ce, 0xc45d22abf9f59d7d,
       0x29de3c7d27d06485, 0xa5a8a3e0dcc087a1, 0x11932bb0436b5982, 0x44bf0fd2338da79b,
       0x8e5c1db6587946c8, 0x488634982deab200, 0xb9530a8f83a565d3, 0x12bf19751622a617,
       0xd5bcf343d0aa1b67, 0x5f753d7e3b6ba06d, 0xf4a8684fade67e13, 0xf4ac8830d3e18121] := by decide +kernel
/-- xorshift1024-testset-1.csv -/
example :
    outsO xs1024NextI (xs1024Reseed (g64 0xdeadbeaf 16) ⟨Vector.replicate 16 0, 0, 0, 0⟩) 16 =
      [0xd1f261787fcf6c0b, 0x6421a19abf38c110, 0x871fc25dc9fa23f6, 0x8d2976f09a5dd89a,
       0x71bfad7a0b35902d, 0x483fbb892a9af5cc, 0xaa15f77a35d991fa, 0x47c84993ddd5850b,
       0x3e0a3ff94da6f6eb, 0x74b087a7d646525, 0xa835fb2e447a6b2f, 0xd9dd430c9961b82f,
       0x10789c381174c489, 0xac71f7ae3d344e31, 0x8d21a325efc7d082, 0x716cade8d330ae3c] := by decide +kernel
/-- xorshift1024-testset-2.csv -/
example :
    outsO xs1024NextI (xs1024Reseed (g64 0x0 16) ⟨Vector.replicate 16 0, 0, 0, 0⟩) 16 =
      [0x5015ec7cbe67f7fa, 0x5da21052a4be1ec1, 0x6c497d648bb30a6e, 0x20a8b1598aafe4b4,
       0xe13d1e4b63dd9afb, 0x63f577b5f874cb43, 0x25d234da4c7d74aa, 0x54b658caccb60a88,
       0xa1edb6d2d66ed3ef, 0xdceffd4dd29ed78d, 0x114c1210e1c24d4b, 0x48a5f6c22a6568b3,
       0xbee693c56573bd50, 0x66d603b5dd4fef08, 0xeb163ebe0c9e2cc1, 0x1fe5d653ab844a26] := by decide +kernel
/-- lxm-testset-1.csv -/
example :
    outs lxmNext (lxmView { (lxmReseed (g64 0xdeadbeaf 8) ⟨Vector.replicate 4 0, 0, 0, 0, 0⟩).getD ⟨Vector.replicate 4 0, 0, 0, 0, 0⟩ with b := 3037000493 ||| 1 }).core 16 =
      [0xc262a4f74fd51497, 0x703bdc352480c56, 0xac52a3da0c283220, 0x81cfd834132c35,
       0x923009b568917e62, 0x50cd2b8f55182c36, 0xf4a5cb77662e9e7, 0xdd2d36bc691ab5fb,
       0xc2d53345ab5220f0, 0x51b3432b7f744559, 0x50af7112f072c746, 0x6d3c61fa3bc9d71a,
       0xfd4b5e2f7102bb3, 0x9b20aa3ecf95d2db, 0xbd11c8b177b8905c, 0x8f255b5b6a0db8cd] := by decide +kernel
/-- lxm-testset-2.csv -/
example :
    outs lxmNext (lxmView { (lxmReseed (g64 0x0 8) ⟨Vector.replicate 4 0, 0, 0, 0, 0⟩).getD ⟨Vector.replicate 4 0, 0, 0, 0, 0⟩ with b := 3037000493 ||| 1 }).core 16 =
      [0x1ce1711e987d2259, 0xdf4bd3316bec6165, 0x3d9dc28622b5adcd, 0x6a275b8aa1c76295,
       0xe09eba1df800977d, 0x203866cd8117c36d, 0xcac1eb5dca8f09cb, 0x6180c21cf7a5a3e6,
       0x2b104c31ecd5f65e, 0xa95b4c39d9829650, 0xee9b4930268e3a25, 0x702b52f40f9a23f3,
       0x2ee842740ec9e3f8, 0x75f29901c1df6604, 0xec89686e116d1d31, 0xc3196d33371dab6d] := by decide +kernel
/-- sfc-testset-1.csv -/
example :
    outs sfcNext (sfcFromSeq (g64 0xdeadbeaf 4) (some 1) (some 1)) 16 =
      [0xa475f55fbb6bc638, 0xb2d594b6c29d971c, 0x275bc4ece4484fb1, 0x569be72d9b3492fb,
       0x89a5bb9b206a670c, 0xd951bfa06afdc3f9, 0x7ee2e1029d52a265, 0x12ef1d4de0cb4d4c,
       0x41658ba8f0ef0280, 0x5b650c82e4fe09c5, 0x638a9f3e30ec4e94, 0x147487fb2ba9233e,
       0x89ef035603d2d1fb, 0xe66ca57a190e6cbe, 0x330f673740dd61fc, 0xc71d3dce2f8bb34e] := by decide +kernel
/-- sfc-testset-2.csv -/
example :
    outs sfcNext (sfcFromSeq (g64 0x0 4) (some 1) (some 1)) 16 =
      [0x91959e5fb96a6332, 0x3c1dd8a25a7e9f21, 0x657bdffc99798d9e, 0x1a04de320b19e022,
       0x65b92af0e5f3c61c, 0x9c84070ce8f743c0, 0xbb10e573693cdb25, 0xd65ea9e76b37fb6b,
       0x503efd0e76c8ae66, 0xd711dcd04c26d0f, 0x12f53f435814ac8c, 0xb392cd402cfc82bd,
       0x461764550e06c889, 0x716a48b3514e6979, 0xdd0a322213c18ad7, 0x6673a8ca0a05c4d7] := by decide +kernel
/-- romuquad-testset-1.csv -/
example :
    outs romuQuadNext (romuFromSeq true (g64 0x0 4 0) (g64 0x0 4 1) (g64 0x0 4 2) (g64 0x0 4 3)) 16 =
      [0x20338d225ad72c08, 0x1343a2771f13a018, 0x97fb376f34344eab, 0xf093faa5166f389e,
       0x3f1c802dc02f44a2, 0xc60b7a7fdf1c9ca3, 0x20f4de4880f56cb3, 0x4201dc15b5cfc96,
       0x72f270dc8f997b6d, 0x328de0acdd0be6e8, 0xd77e90ccd44eb7fd, 0xff732af9032f81e4,
       0xe65eb5758e687f13, 0xcab5a3ee6383df45, 0x9316bbf096abd1d0, 0xe21845e2d70febac] := by decide +kernel
/-- romuquad-testset-2.csv -/
example :
    outs romuQuadNext (romuFromSeq true (g64 0xdeadbeef 4 0) (g64 0xdeadbeef 4 1) (g64 0xdeadbeef 4 2) (g64 0xdeadbeef 4 3)) 16 =
      [0x401d51581dbcae8, 0xd3997952ff1098ad, 0xdbc5f48d4baf3089, 0xd69f416f29536f5e,
       0x6562e85a07045cf4, 0xb7a462e9170a0c10, 0xbbde7a743cc5cd45, 0xebfeed5680aebb7e,
       0xb88e25feef85a227, 0x75a490429818267b, 0x555a468b377cac8d, 0xd6dd89c5d1d05ca5,
       0xf61ccae793d7becf, 0x35edde44b898311f, 0xcea9a68923f8b57f, 0xdc18affee2d6ff29] := by decide +kernel
/-- romutrio-testset-1.csv -/
example :
    outs romuTrioNext (romuFromSeq false (g64 0x0 4 0) (g64 0x0 4 1) (g64 0x0 4 2) (g64 0x0 4 3)) 16 =
      [0xf64128a6cdad82f, 0xaa05e1659e749363, 0x81309c5c1fe495ae, 0xe36ad85366dccd6d,
       0xd1c05ebe1c9e35b5, 0x88a7224125919e0a, 0xd54a63b39815b2f9, 0x9c697295fe5ff694,
       0x5fc2efbd79e7268f, 0xc780a34bfc927fd1, 0x7202a53e9cc4b112, 0x4628eb5022c4107b,
       0xa2d9df1cc99dd15a, 0xc1109c5d27fe721b, 0x7b4b9389d5ab7a6a, 0x9c44530624b7ba53] := by decide +kernel
/-- romutrio-testset-2.csv -/
example :
    outs romuTrioNext (romuFromSeq false (g64 0xdeadbeef 4 0) (g64 0xdeadbeef 4 1) (g64 0xdeadbeef 4 2) (g64 0xdeadbeef 4 3)) 16 =
      [0xe99a8cefd400569a, 0x2a634a896a31e049, 0x242731d2bae6c37f, 0x2c134410c651cdc2,
       0xa2dffb11994be4ac, 0xa5d951d58b9c1126, 0x6b2464db4f547199, 0xa93b855522eccd,
       0x858a5c49e18d8d0d, 0x5e19cc8df2b01cf3, 0x1162bb8bcc26a7e7, 0xf0c90b6d3131cf3c,
       0x488b67a13057dc7d, 0x45836ad51fb2fdca, 0xe159e53364919a33, 0x80908d40b72f4f93] := by decide +kernel
/-- efiix64-testset-1.csv -/
example :
    outs efiixNext (efiixSeed ⟨fun _ => 0, fun _ => 0, 0, 0, 0, 0⟩ (g64 0x0 4 0) (g64 0x0 4 1) (g64 0x0 4 2) (g64 0x0 4 3)) 16 =
      [0xae0f686a3ac34f0b, 0xfb928201b478f670, 0x9cc6b0e10ddead0b, 0x6e35a39ed9c34119,
       0xcf0d33455aaf4768, 0x492cc45a170048ec, 0x6fba7b4a08791673, 0x573fdf32e91079b6,
       0xf2beafd906de8905, 0xcf59285abd49ffb5, 0x4db3c05b815cf5b2, 0xe20cf41c0e709bf5,
       0xfbe63dfcfee8d589, 0x843f038472f16a18, 0x1d0f076c0b06d1a6, 0x71890b243f2f4c66] := by decide +kernel
/-- efiix64-testset-2.csv -/
example :
    outs efiixNext (efiixSeed ⟨fun _ => 0, fun _ => 0, 0, 0, 0, 0⟩ (g64 0xdeadbeef 4 0) (g64 0xdeadbeef 4 1) (g64 0xdeadbeef 4 2) (g64 0xdeadbeef 4 3)) 16 =
      [0xab6917e19d60bf1b, 0x89f5f550c95f780e, 0xec1cdb7d9ba1ac55, 0x716385d46e53bb3e,
       0x6b6480d9bca77e6e, 0x938aa6a0242d7940, 0x9df92f95b9c77120, 0x839faaacf3dec051,
       0x41a6f16cb6339bb2, 0x144c7ac5994bc9b9, 0x1e861e65b706dfd9, 0x5ccc216c04e6dc0f,
       0x8f250a3340f31de2, 0x4ecc4fa2af055e55, 0xe92721d625747aef, 0x9da9623d8995ca9f] := by decide +kernel
/-- jsf64-testset-1.csv -/
example :
    outsO (jsfNext ⟨7, 13, 37⟩) ((jsfSeed ⟨7, 13, 37⟩ (g64 0x0 4) 1).getD ⟨0, 0, 0, 0⟩) 16 =
      [0x64c715d896d48c8, 0xe970a19cccd302ae, 0x3570bf4fb7c47739, 0xa89d60e0c98d60f,
       0x8efb5b5441f4ae78, 0xe58059d991700f40, 0x97bd52a46c59dbe4, 0xf93151a356667af0,
       0x5ea1a040958133db, 0xcad06ec247052ef7, 0xd24803fb35a85390, 0xef2325a3424911cb,
       0x31572ae2319a917, 0x3224c349cb5a3466, 0xc9516e80ce4e6c28, 0xfb5753e530e9f663] := by decide +kernel
/-- jsf64-testset-2.csv -/
example :
    outsO (jsfNext ⟨7, 13, 37⟩) ((jsfSeed ⟨7, 13, 37⟩ (g64 0xdeadbeaf 4) 1).getD ⟨0, 0, 0, 0⟩) 16 =
      [0x96eecd2c8acb1fa6, 0xdb08e69ba0e56f69, 0x7e3a6dae4750cc6a, 0x30dc222fddf142c2,
       0x1cfddcdfbd3908c9, 0xf8b856a9f878e94e, 0xd8f884413b93b35b, 0x36defe42eecc9530,
       0xff92acd4e3cad736, 0x16ba680ff7bd3663, 0x965b8c6e161b1bcf, 0x95c977e4ef8aac44,
       0xc8ae8848ce0637e5, 0xb6261e02d94e90be, 0xee4e6f9bcbd8aa76, 0xbcff99e4591df948] := by decide +kernel
/-- jsf32-testset-1.csv -/
example :
    outsO (jsfNext ⟨27, 17, 0⟩) ((jsfSeed ⟨27, 17, 0⟩ (g32 0x0 4) 1).getD ⟨0, 0, 0, 0⟩) 16 =
      [0xbc3b6fc8, 0x7243b586, 0x4c2d6536, 0x446d6a45,
       0xaf420406, 0xa00d6fb8, 0x76297faa, 0xd6860174,
       0x823fc7ab, 0x7d232a0d, 0x717924a2, 0x70b75747,
       0x7ec2545a, 0x1684809f, 0x208c007f, 0xcf20376c] := by decide +kernel
/-- jsf32-testset-2.csv -/
example :
    outsO (jsfNext ⟨27, 17, 0⟩) ((jsfSeed ⟨27, 17, 0⟩ (g32 0xdeadbeaf 4) 1).getD ⟨0, 0, 0, 0⟩) 16 =
      [0xd669cfeb, 0x938bb8e8, 0xae208b04, 0xf7607c7d,
       0x487a665, 0xe2f0526, 0x7713bde6, 0xe0fb1283,
       0xafcaf1b, 0x3b049ac3, 0x42e15e6e, 0x84305681,
       0x69de6a5c, 0x54c650b3, 0x4d088097, 0x1c7ea9ef] := by decide +kernel
/-- tyche-testset-1.csv -/
example :
    outs (twoCalls tycheNext true) (tycheSeed true (join32 (g32 0x0 4 1) (g32 0x0 4 0)) (g32 0x0 4 2)) 16 =
      [0xb74288aacc323135, 0x43eb4bf089a82af3, 0x815c8ee395d412cb, 0xdcd89d4b841f68fe,
       0x1369d960b66a3ad, 0x4028d6d6a5ffab97, 0x350aa1bedf3e9668, 0xb06e26ddcba90c30,
       0x38a35c1a2146d43d, 0x5353d0602a84c4d3, 0xdaa759352af4ee1f, 0xee976ffdace0522,
       0xd0f9382b11c01b29, 0x5146c065a30c9dd1, 0xe92213ff226e5dd3, 0x99a0e5815de24d5f] := by decide +kernel
/-- tyche-testset-2.csv -/
example :
    outs (twoCalls tycheNext true) (tycheSeed true (join32 (g32 0xdeadbeaf 4 1) (g32 0xdeadbeaf 4 0)) (g32 0xdeadbeaf 4 2)) 16 =
      [0xba2e41b1eed391a3, 0x9063ed18f1181a42, 0xf316a89d34a40ee7, 0x53fdf59ab4088c55,
       0x2283dff9d3dcd05b, 0x48d76ab86f440abb, 0xdd93474191aeee3b, 0x4958bb8fbec8e2cb,
       0xff0614528d9e2c9d, 0x17513459db573fed, 0x9f5dfe9abc5007c9, 0xaa263a18a3c5202,
       0x5a41c55521dc5306, 0x225bb4f03b4de0d1, 0xaa1b45a824eec357, 0x2db61606558d477] := by decide +kernel
/-- tyche-openrand-testset-1.csv -/
example :
    outs (twoCalls tycheOpenNext true) (tycheSeed false (join32 (g32 0x0 4 1) (g32 0x0 4 0)) (g32 0x0 4 2)) 16 =
      [0x357aa4c06b272f95, 0x14f9f91072de35c6, 0xf93aedd5480c6627, 0x8f9032d9c56734f3,
       0x6eaafbbd0383ecb2, 0xcac7e1f3d1c408da, 0x6119941a547ba578, 0x91b28d1e00de3fed,
       0xfbc57baf631449f8, 0xe59b19a2bc9a96ac, 0xc7870fc12e3e3745, 0xe0867a54354aceee,
       0x655fcb731a2364af, 0x8f5aee937941374b, 0xa2175e1b0fd20aa5, 0xdb99795b8a5763fc] := by decide +kernel
/-- tyche-openrand-testset-2.csv -/
example :
    outs (twoCalls tycheOpenNext true) (tycheSeed false (join32 (g32 0xdeadbeaf 4 1) (g32 0xdeadbeaf 4 0)) (g32 0xdeadbeaf 4 2)) 16 =
      [0x2b71264d6b31f7cb, 0x8b08f0c52b94983, 0xaad3601b3140f9b9, 0x3efdd0e1350bd2d4,
       0xe6ec2487cd4a84ab, 0x8c17eb3ed7a39f2a, 0x9e93383e6c35be0c, 0xd7a8f639b12aab97,
       0x49b2017b30e9de78, 0x3821e4f5972d3585, 0xa2954c81bb30bf3a, 0xe34de51b9c181abc,
       0x8c9066d759aa95d4, 0x86768fcb801bc2d9, 0x2323f32083483de9, 0xaef43ba14beeecb8] := by decide +kernel
/-- pcg64-testset-1.csv -/
example :
    outs Pcg.next (Pcg.seedCore .xslRr (Pcg.const128 (g64 0x0 4 0) (g64 0x0 4 1)) (Pcg.const128 (g64 0x0 4 2) (g64 0x0 4 3))) 16 =
      [0xa30febcfd9c2825f, 0x4510bdf882d9d721, 0xa7d3da94ecde8b8, 0x43b27b61342f01d,
       0xd0327a782cde513b, 0xe9aa5979a6401c4e, 0x9b4c7b7180edb27f, 0xbac0495ff8829a45,
       0x8b2b01e7a1dc7fbf, 0xef60e8078f56bfed, 0xd0dbc74d4700374c, 0xb37868abbe90b0,
       0xdb7ed8bf64e6f5f0, 0x89910738de7951f, 0xbacab307c3cfd379, 0x2cf7c449d8b927a6] := by decide +kernel
/-- pcg64-testset-2.csv -/
example :
    outs Pcg.next (Pcg.seedCore .xslRr (Pcg.const128 (g64 0xdeadbeaf 4 0) (g64 0xdeadbeaf 4 1)) (Pcg.const128 (g64 0xdeadbeaf 4 2) (g64 0xdeadbeaf 4 3))) 16 =
      [0x60d24054e17a0698, 0xd5e79d89856e4f12, 0xd254972fe64bd782, 0xf1e3072a53c72571,
       0xd7c1d7393d4115c9, 0x77b75928b763e1e2, 0xee6dee05190f7909, 0x15f7b1c51d7fa319,
       0x27e44105f26ac2d7, 0xcc0d88b29e5b415, 0xe07b1a90c685e361, 0xd2e430240de95e38,
       0x3260bca9a24ca9da, 0x9b3cf2e92385adb7, 0x30b5514548271976, 0xa3a1fa16c124faf9] := by decide +kernel
/-- pcg64-dxsm-testset-1.csv -/
example :
    outs Pcg.next (Pcg.seedCore .dxsm128 (Pcg.const128 (g64 0x0 4 0) (g64 0x0 4 1)) 0) 16 =
      [0x3e8c8a3f7acfb7c7, 0x4ff241e54decae4, 0xb5a18bc6228755de, 0x51441a10549b9aff,
       0xb0d1aab3db3d5756, 0x4069d593777d2f75, 0x740cc29a20c647e6, 0xd109d27e4cb60098,
       0xf2cb3ced4e3fb72d, 0xd4911e8a2eaa01a4, 0xa89e05f1d66918f5, 0xb25a9e24f8f0adc9,
       0x7a37c6cb306cecd3, 0xf3e028e8a576e8bf, 0xdc532bc3e56ed655, 0xb28ba3ba473adc3e] := by decide +kernel
/-- pcg64-dxsm-testset-2.csv -/
example :
    outs Pcg.next (Pcg.seedCore .dxsm128 (Pcg.const128 (g64 0xdeadbeef 4 0) (g64 0xdeadbeef 4 1)) 0) 16 =
      [0x9f73f07b84564bae, 0xb22aa754ac5bc305, 0x754cf663685d069f, 0xf3f63920c08af92a,
       0xf18eaeeda97bf0f2, 0x9e1b0e62236ee8df, 0xe2641e0ee64d9db1, 0xb787b2688459bfc1,
       0xe0d5d1415b340c1, 0x653cd1b8c243700e, 0x81b7b606eda3675a, 0x7ddbab6594c77000,
       0x628c9a5c8a775b39, 0x147b44efe7e404a8, 0x93239044cbe69bbd, 0xa71d31efa7dfd91d] := by decide +kernel
/-- pcg64-cm-dxsm-testset-1.csv -/
example :
    outs Pcg.next (Pcg.seedCore .cmDxsm (Pcg.const128 (g64 0x0 4 0) (g64 0x0 4 1)) 0) 16 =
      [0x397dbf7c0360842d, 0x9f0b7c8fbde4da90, 0x135d1beece5795f8, 0x321b384923897c3f,
       0x8b7ed51dae78b33d, 0xdf779bfb051721e2, 0xe4aa573afed3d717, 0xd3c6fefa1c8fbd77,
       0xee778c4d3b66b816, 0x838e200bd964a762, 0xb1c79afaccb61d8e, 0x31cc0e48aa129ba9,
       0x952a0ba6fd5e0713, 0xc5f3841d8635575f, 0xed2dbc82bc5d5385, 0xcbedafbbe38b2794] := by decide +kernel
/-- pcg64-cm-dxsm-testset-2.csv -/
example :
    outs Pcg.next (Pcg.seedCore .cmDxsm (Pcg.const128 (g64 0xdeadbeef 4 0) (g64 0xdeadbeef 4 1)) 0) 16 =
      [0xaffad3f85476f26c, 0x517b82a2f7879515, 0xd03a53ffd6171d8d, 0x547b0da2e116951b,
       0x22dcd1441aa50c12, 0x8845bd37dcf8c916, 0x7ae8a7c57ef13590, 0x46734ba95a2e7a19,
       0x5f11b9db23bd5433, 0xe920dea257c84044, 0x394bfd0ecb4335b8, 0xfe6e0455b41f4c74,
       0x67aaf0b176c78b24, 0x4b81b36a07f1e0fc, 0xca82e0aeb205d24f, 0x97ae2262f8169161] := by decide +kernel
/-- pcg32-testset-1.csv -/
example :
    outs Pcg32.next (Pcg32.seed (g64 0xdeadbeaf 4 0) (g64 0xdeadbeaf 4 1)) 16 =
      [0x46aed67f, 0x67882fa3, 0xc9456368, 0x24ec3198,
       0x55265c37, 0x7b0d5844, 0xe8999672, 0x3d999f46,
       0x578d9bda, 0x5fdb0582, 0x5fd1bc23, 0x9f8c7255,
       0x5141d307, 0x108fa40f, 0x54ef0d56, 0xa831e9df] := by decide +kernel
/-- pcg32-testset-2.csv -/
example :
    outs Pcg32.next (Pcg32.seed (g64 0x0 4 0) (g64 0x0 4 1)) 16 =
      [0x82894687, 0x373060f, 0xa87830ca, 0x629513f2,
       0xd330aab6, 0xfa40fe58, 0xe24fd608, 0x9c7f1572,
       0xc960a02c, 0xfa5d897b, 0x2c56449b, 0x1a3f4375,
       0x698c4e05, 0xa36d8b59, 0x8d50b687, 0xe005f4a5] := by decide +kernel
/-- squares-testset-1.csv -/
example :
    outs sqNext64 (sqStart 0xdeadbeaf) 16 =
      [0x5167ea8b7923d95b, 0xe03102be2db8c20, 0xe59f61d7beb27f5d, 0x943ac4d08e1a4431,
       0x55a666125bf71ba4, 0x8de3053858a91018, 0xc0fe52f59630f81e, 0x163e8e1aebd16c1b,
       0xdc3ad0e9eedef536, 0x8d143cbfdf6febae, 0xd43c7244207bc4bc, 0x713d6902c3119480,
       0xef743c576a55ee62, 0x13faed5a114289f8, 0xb7c25dba7d3db4ab, 0x2d8b299a74a5aae3] := by decide +kernel
/-- squares-testset-2.csv -/
example :
    outs sqNext64 (sqStart 0x0) 16 =
      [0x84ef8bb44b2a9590, 0x4666b593d6d064dc, 0x366ada387a5ad93d, 0x8788c4c44edf72ca,
       0xe651d0b42ed58e59, 0x7c5837140d7b3f78, 0xf2732865536fd051, 0xc02583973686ab42,
       0x1c146e74d903b540, 0x2c4b94bfa00348c6, 0x28a9f9af69aee20e, 0x617eb1fdd0f14573,
       0x20204dc3c5a5952c, 0x8b8ba3782ec776fb, 0x49b4f22d813ee5b2, 0x5270702b631f949] := by decide +kernel
/-- squares-32-testset-1.csv -/
example :
    outs (twoCalls sqNext32 false) (sqStart 0xdeadbeaf) 16 =
      [0xe03102b5167ea8b, 0x943ac4d0e59f61d7, 0x8de3053855a66612, 0x163e8e1ac0fe52f5,
       0x8d143cbfdc3ad0e9, 0x713d6902d43c7244, 0x13faed5aef743c57, 0x2d8b299ab7c25dba,
       0x352a09e43da553bd, 0x7cb1f62c11b148b0, 0xa321f08e99b6c566, 0x29ae990a73e5c3ae,
       0x2fc0ace2db115917, 0x5773f6d156d4f0d2, 0xe1a12a4ebd1dc24a, 0xfc6ea85d79f6fde3] := by decide +kernel
/-- squares-32-testset-2.csv -/
example :
    outs (twoCalls sqNext32 false) (sqStart 0x0) 16 =
      [0x4666b59384ef8bb4, 0x8788c4c4366ada38, 0x7c583714e651d0b4, 0xc0258397f2732865,
       0x2c4b94bf1c146e74, 0x617eb1fd28a9f9af, 0x8b8ba37820204dc3, 0x527070249b4f22d,
       0xee5a665a041a2e41, 0xf515f9d125411e6b, 0x32230aad8bbb7e7d, 0xc74c541bfcaf116e,
       0xce116bd1342e2b84, 0x97bab2a7fa65518a, 0x24a8bbb0979bda5f, 0x7ceb7f0ebd784ecb] := by decide +kernel
/-- speck-128-testset-1.csv -/
example :
    outsO speckNext (speckSeed ⟨fun _ => 0, fun _ => ⟨0, 0⟩, fun _ => 0, 34, 96, false, 0⟩ (g64 0x0 4 0) (g64 0x0 4 1) (g64 0x0 4 2) (g64 0x0 4 3) ⟨0, 0⟩) 16 =
      [0x91c62a36f16de4bf, 0x124a8e82999cb0dd, 0x611e0d0e9cc48709, 0x54c1be53d74e1b1,
       0x120ca11882ec530f, 0x86f794b637a2cf8, 0xee04eaa604899bbb, 0xbe8746cc2584ed16,
       0x5a0369ba396c6f31, 0x5d64c49b0e8a7d02, 0xd2b70d5ae9e984b8, 0xb87a5950ddf00743,
       0x3af86c17fa51caa4, 0xb0003f17316d88c2, 0xdb1c0956e2973e62, 0xdac2633f4676e682] := by decide +kernel
/-- speck-128-testset-2.csv -/
example :
    outsO speckNext (speckSeed ⟨fun _ => 0, fun _ => ⟨0, 0⟩, fun _ => 0, 34, 96, false, 0⟩ (g64 0xdeadbeaf 4 0) (g64 0xdeadbeaf 4 1) (g64 0xdeadbeaf 4 2) (g64 0xdeadbeaf 4 3) ⟨0, 0⟩) 16 =
      [0xecddea6dcd11de20, 0x56b3f69cca0a5d54, 0x246523f1df610dad, 0x97e5079c44d7f1e6,
       0xc88101ea0c85ce5a, 0x64a8045f64516b81, 0x7f44d1af3b8b20f7, 0x33968e0aa9ca1726,
       0x5938a60bcb262922, 0x8be95829dd14c655, 0x8f5ff07c682f4343, 0xedfb24dc88c6540e,
       0x5ba050393c543379, 0x85e7df6f670fabfd, 0xa098b5b8eef76f0d, 0xc7ee5f53bc57376e] := by decide +kernel
/-- aesctr-testset-1.csv -/
example :
    outsO aesNext (aesSeed ⟨fun _ => ⟨0, 0⟩, fun _ => 0, fun _ => 0, 64, false, 0⟩ (g64 0xdeadbeaf 4 0) (g64 0xdeadbeaf 4 1) 0) 2 =
      [0x4fbc4bbb0c2d02d4, 0xf32bc865ef910a06] := by decide +kernel
/-- aesctr-testset-2.csv -/
example :
    outsO aesNext (aesSeed ⟨fun _ => ⟨0, 0⟩, fun _ => 0, fun _ => 0, 64, false, 0⟩ (g64 0x0 4 0) (g64 0x0 4 1) 0) 2 =
      [0xabf8035855cf8338, 0x94b18b66b4c4d5fb] := by decide +kernel
/-- philox-testset-1.csv -/
example :
    outsO (cmNext 4 philox) (cmSeed 4 2 (⟨[], [], fun _ => 0, 4, false, 0⟩ : CtrGen 64) (big 0xdeadbeaf 2) 0) 16 =
      [0xedc95200e2bd66a5, 0x581d4e43b7682352, 0x4be7278f5e373eab, 0xee47f17991a9e7ea,
       0x38a7d2ae422f2e2c, 0xe2a6730a3b4a8a15, 0x1588b7a841486442, 0x13ad777246700504,
       0x14d157e0f5e18204, 0xd87c22a7ee8c13f1, 0x30cc389ce3542ba1, 0xb8a53348955bb2e9,
       0xc08802e3c454f74f, 0xb444f627671a5780, 0x4b6dd42b29cbf567, 0x6109c7dc0bc5f7d5] := by decide +kernel
/-- philox-testset-2.csv -/
example :
    outsO (cmNext 4 philox) (cmSeed 4 2 (⟨[], [], fun _ => 0, 4, false, 0⟩ : CtrGen 64) (big 0x0 2) 0) 16 =
      [0x399e5b222b82fa9, 0x41fd08c1f00f3bc5, 0x78b8824162ee4d04, 0x176747919e02739d,
       0xfaa88f002a8d3596, 0x418eb6f592e6c227, 0xef83020b8344dd45, 0x30a74a1a6eaa064b,
       0x93d43bf97a490c3, 0xe4ba28b442194cc, 0xc829083a168a8656, 0x73f45d50f8e22849,
       0xf912db57352824cc, 0xf524216927b12ada, 0x22b7697473b1dfda, 0x311e2a936414b39f] := by decide +kernel
/-- philox4x32-testset-1.csv -/
example :
    outsO (cmNext 4 philox) (cmSeed 4 2 (⟨[], [], fun _ => 0, 4, false, 0⟩ : CtrGen 32) (big 0xdeadbeaf 1) 0) 16 =
      [0x9b9ea98c, 0x2e2a2293, 0xa5a1576d, 0x8a1b7628,
       0xcda33ffb, 0x509dd6b5, 0xd3fd0744, 0x152a5e40,
       0xe264bf97, 0x69321c14, 0xce5f35f3, 0x97842d95,
       0xca12522f, 0x5d92c3fe, 0x776c0e65, 0x2f0bef2a] := by decide +kernel
/-- philox4x32-testset-2.csv -/
example :
    outsO (cmNext 4 philox) (cmSeed 4 2 (⟨[], [], fun _ => 0, 4, false, 0⟩ : CtrGen 32) (big 0x0 1) 0) 16 =
      [0xeba3cc89, 0x9e710a5f, 0x5398c3f0, 0xab77fc0a,
       0xe6d1b3a1, 0x196e2e5, 0xc6106033, 0xcd7ae667,
       0xce15ccd0, 0xa28698d1, 0x3a55add7, 0xf63a399,
       0xb68d9542, 0x8adee8b7, 0x6d07f66f, 0x5e76276] := by decide +kernel
/-- threefry-testset-1.csv -/
example :
    outsO (cmNext 4 threefry) (cmSeed 4 4 (⟨[], [], fun _ => 0, 4, false, 0⟩ : CtrGen 64) (big 0xdeadbeaf 4) 0) 16 =
      [0xbefa8ee31e27c265, 0xb04e9d22a0abdb95, 0xca84aabb77c40820, 0xf3be745a57db5f05,
       0xf2fbca3356e4d932, 0x210eb270d279c5f, 0x2e992d229ec29a87, 0xa4adf09ad314f1bb,
       0x276b2ff93bc897e, 0xddb13326d0e92a41, 0x58329cbebcf0945c, 0xab89da53e2876851,
       0x31a1a1ca09873b47, 0x5dad24bc1059d02a, 0x89b2f22b4199f6c7, 0x1bba48bd4277ded5] := by decide +kernel
/-- threefry-testset-2.csv -/
example :
    outsO (cmNext 4 threefry) (cmSeed 4 4 (⟨[], [], fun _ => 0, 4, false, 0⟩ : CtrGen 64) (big 0x0 4) 0) 16 =
      [0x7bf81357ac6cf8b5, 0xb9c76ea72b36d14c, 0x21a650cc1071d31a, 0xf9f435bf1e5dad11,
       0x934bfc2e85d9898a, 0x8cff99d637123601, 0xe31a1f835b1519f3, 0x51d986024369c85f,
       0x2ddeafbe18496a42, 0xf73f5bbd23af3fdd, 0x8d987e5d6c51ecce, 0x7c17b2fd7adebf00,
       0x7937f53874c4baeb, 0x63a5f1cb104fdd2d, 0xf0bdffcc5ef8e96c, 0x950ad851d0f3b780] := by decide +kernel
/-- threefry32-testset-1.csv -/
example :
    outsO (cmNext 4 threefry) (cmSeed 4 4 (⟨[], [], fun _ => 0, 4, false, 0⟩ : CtrGen 32) (big 0xdeadbeaf 2) 0) 16 =
      [0xd781a948, 0xce47e3a3, 0x75f50a9c, 0x3a54c31,
       0xf964756b, 0xc863eb17, 0xfaa45cc6, 0xfd0bb6ff,
       0x470d343, 0xbcdeb597, 0x8e47e6fb, 0x8326abb8,
       0x8a6ab0e2, 0x1923c732, 0xbc2792a3, 0x19de19ad] := by decide +kernel
/-- threefry32-testset-2.csv -/
example :
    outsO (cmNext 4 threefry) (cmSeed 4 4 (⟨[], [], fun _ => 0, 4, false, 0⟩ : CtrGen 32) (big 0x0 2) 0) 16 =
      [0xbd86b2c, 0xb9ca8880, 0xde8f27fe, 0x688d0c43,
       0xa237b4bc, 0xff4d860e, 0x6fcd69c3, 0x2b8fb122,
       0xc9bd1720, 0xcbf46a5a, 0xee0e5db9, 0xb7d478d4,
       0xc21e5d7d, 0xd5ef93b3, 0xebf53307, 0xc64a9b34] := by decide +kernel
/-- chacha-testset-1.csv -/
example :
    outs (twoCalls ccNext false) (ccSeed ⟨⟨⟨0,0,0,0⟩,⟨0,0,0,0⟩,⟨0,0,0,0⟩,⟨0,0,0,0⟩⟩, ⟨0,0,0,0⟩, ⟨0,0,0,0⟩, 0, 0, 20⟩ (g64 0x0 4 0) (g64 0x0 4 1) (g64 0x0 4 2) (g64 0x0 4 3) 0 0) 16 =
      [0xdcfdd7cacbbf1395, 0xf7d5ab29cb80e259, 0x3f9b0a45ac13d4ab, 0xfe8e5bdd30ef27ba,
       0xe667e01e072c6ae7, 0xae0e15f90e08976a, 0x154fcbed3b860153, 0x51802ab51545d501,
       0x1cc1e3d2add4b191, 0x5f4fddbd404ef908, 0xe73b1d65f8ee5cf5, 0x8f5b699bcbfab824,
       0x7c459132f7796da8, 0x2d3096ae76220321, 0xf705e25138bcf16c, 0xa635d4d9f2596815] := by decide +kernel
/-- chacha-testset-2.csv -/
example :
    outs (twoCalls ccNext false) (ccSeed ⟨⟨⟨0,0,0,0⟩,⟨0,0,0,0⟩,⟨0,0,0,0⟩,⟨0,0,0,0⟩⟩, ⟨0,0,0,0⟩, ⟨0,0,0,0⟩, 0, 0, 20⟩ (g64 0xdeadbeaf 4 0) (g64 0xdeadbeaf 4 1) (g64 0xdeadbeaf 4 2) (g64 0xdeadbeaf 4 3) 0 0) 16 =
      [0x1d5fab6640ab5ce0, 0x84996c276b3aa2a, 0xabe3a68aa0c28564, 0x9cf098bc48aeb6e4,
       0xf3b56bb891c9641c, 0xcb03d2ad70d22086, 0xb54bb716100586de, 0x851d2530e442574d,
       0x2389c9c3e4c4de10, 0x4bfc495eebb98642, 0x3456d62195d7cdca, 0x57421c90ef9836a0,
       0x6bdb85d850610d81, 0x78b73d24b0b9321b, 0xd18e596d4cb69d42, 0xbaa5626e3dc1be04] := by decide +kernel

/-! `test_large_advance` (test_direct.py:1918-1924, 1951-1957): the state after seeding with 0 and `inc=1`, and after
advancing by 2^96 - 1; the counter of Squares after advancing by 2^63 - 1. -/

example : (Pcg.seedCore .dxsm128 (Pcg.const128 (g64 0 4 0) (g64 0 4 1)) 1).state = 262626489767919729675955844831248137855 ∧
    (Pcg.advance ⟨Pcg.seedCore .dxsm128 (Pcg.const128 (g64 0 4 0) (g64 0 4 1)) 1, false, 0⟩ (2 ^ 96 - 1)).core.state =
      326675794918500479020985263602132957772 := by decide +kernel
example : (Pcg.seedCore .cmDxsm (Pcg.const128 (g64 0 4 0) (g64 0 4 1)) 1).state = 159934576226003702342121456273047082943 ∧
    (Pcg.advance ⟨Pcg.seedCore .cmDxsm (Pcg.const128 (g64 0 4 0) (g64 0 4 1)) 1, false, 0⟩ (2 ^ 96 - 1)).core.state =
      43406923282132296644520456716700203596 := by decide +kernel
example : (sqAdvance ⟨⟨1, 11400714819323198485⟩, false, 0⟩ (2 ^ 63 - 1)).core.counter = 2177342782468422676 := by
  decide +kernel

end Verif.Check
