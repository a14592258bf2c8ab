import Verif.Check.Data
import Verif.Model.Session4
import Verif.Props.Hc128
import Verif.Proof.HcPack

/-! As `Check/Data`, for HC128, whose tables are evaluated in packed form. -/

namespace Verif.Check
open HC

/-- The first sixteen keystream words of the all-zero key and initial vector, as published with the cipher (Wu, "The stream cipher HC-128",
test vector 1). -/
example : (List.range 16).map (fun i => (nthDraw refStep i (refInit (fun _ => 0) fun _ => 0)).toNat) =
    [0x73150082, 0x3bfd03a0, 0xfb2fd77f, 0xaa63af0e, 0xde122fc6, 0xa7dc29b6, 0x62a68527, 0x8b75ec68, 0x9036db1e, 0x81896005, 0x00ade078, 0x491fbf9a,
     0x1cdc3013, 0x6c3d6e24, 0x90f664b2, 0x9cd57102] := by
  rw [words_eq _ _ _ (by decide)]
  decide +kernel

theorem hc_code (seed : Nat → U32) (m : Nat) (hm : m ≤ 512) : (List.range m).map (fun n => (nthO hcNext32 n (hcSeed seed hcZero)).map BitVec.toNat) =
    (firstWords (initPack seed fun i => seed (4 + i)).2 m m (initPack seed fun i => seed (4 + i)).1).map some := by
  rw [← words_eq _ _ _ hm, List.map_map]
  refine List.map_congr_left fun n _ => ?_
  rw [C67_hc128_reference]
  generalize refInit seed _ = X
  rfl

/-- hc-128-testset-1.csv; each 64-bit value is two words, low half first -/
example : (List.range 32).map (fun n => (nthO hcNext32 n (hcSeed (hcSeedWords (g64 0xdeadbeaf 4)) hcZero)).map BitVec.toNat) =
    [some 0x738c99a7, some 0x3fe1d0ff, some 0x6081d26e, some 0x2447294, some 0xd4836f01, some 0x157543c, some 0x7fccc522, some 0xe1eb34cb,
     some 0xf31dbf1f, some 0x12fbf53e, some 0x22b91fee, some 0xc6751b57, some 0x6661ddcf, some 0x764361fc, some 0x833f3302, some 0x2eed9c7a,
     some 0x64c99ede, some 0xb52428ae, some 0x7277f353, some 0xcd206c6d, some 0x4f1300c6, some 0x72696c6c, some 0x864875e2, some 0x79c4dedd,
     some 0x2229a552, some 0x42378625, some 0xa92afca7, some 0x58bfd5fa, some 0x73058d6e, some 0xd68b939e, some 0xe94ed82c, some 0xaaae65c8] := by
  rw [hc_code _ _ (by decide)]
  decide +kernel
/-- hc-128-testset-2.csv; each 64-bit value is two words, low half first -/
example : (List.range 32).map (fun n => (nthO hcNext32 n (hcSeed (hcSeedWords (g64 0x0 4)) hcZero)).map BitVec.toNat) =
    [some 0xdf7d051c, some 0x54259e48, some 0x363521c5, some 0xd68ba260, some 0x895b67b9, some 0x659fd706, some 0xa36d262e, some 0xc12fe305,
     some 0xa8bd715f, some 0xb5071c82, some 0x946d1461, some 0x73383213, some 0x9601123c, some 0xf3c63731, some 0x901cd6d8, some 0xa318162f,
     some 0xd4277a52, some 0x20a111a, some 0x152e8a6f, some 0xda785446, some 0x50595b0e, some 0xfeba1632, some 0x81725209, some 0xd15ad098,
     some 0x7a3fc028, some 0xae398ffc, some 0xea0c0464, some 0xf0067a00, some 0xe1b8b2d, some 0x45d529a0, some 0xc6c20c61, some 0x1b5fee0a] := by
  rw [hc_code _ _ (by decide)]
  decide +kernel

end Verif.Check
