import Verif.Model.SeedWords
import Verif.Props.Recipes
import Verif.Props.SeedSeq
import Mathlib.GroupTheory.OrderOfElement

/-! C100: whatever the seed, a generator has its full period. -/

namespace Verif

open XorLinear Orbit Linear SeedSeq

/-! ### When a generated word is zero -/

theorem iter_sq (x : U32) (k : Nat) : (fun y : U32 => y * y)^[k] x = x ^ 2 ^ k := by
  induction k with
  | zero => rw [Function.iterate_zero, id, pow_zero, pow_one]
  | succ k ih =>
    rw [Function.iterate_succ_apply', ih, pow_succ 2, pow_mul, pow_two]

theorem multB_order : orderOf MULT_B = 2 ^ 30 := by
  have : Fact (Nat.Prime 2) := ⟨Nat.prime_two⟩
  refine orderOf_eq_prime_pow (n := 29) ?_ ?_
  · rw [← iter_sq]; decide +kernel
  · rw [← iter_sq]; decide +kernel

theorem genConst_odd (k : Nat) : (INIT_B * MULT_B ^ k).toNat % 2 = 1 := by
  induction k with
  | zero => rw [pow_zero, mul_one]; decide
  | succ k ih => rw [pow_succ, ← mul_assoc]; exact odd_mul (by decide) ih (by decide)

theorem outWord_zero (p : U32) (i : Nat) : outWord p i = 0 ↔ p = INIT_B * MULT_B ^ i := by
  have h : outWord (INIT_B * MULT_B ^ i) i = 0 := by
    rw [outWord, BitVec.xor_self]; simp
  exact ⟨fun e => outWord_inj (e.trans h.symm), fun e => by rw [e, h]⟩

/-- Two of the words generated from one word of the pool are never both zero. -/
theorem C100_pair_not_zero (pool : List U32) (hn : 0 < pool.length ∧ pool.length < 2 ^ 30) (m i : Nat) (h : i + pool.length < m) :
    ¬((generate32 pool m).getD i 0 = 0 ∧ (generate32 pool m).getD (i + pool.length) 0 = 0) := by
  rw [generate32_getD _ _ _ (by omega), generate32_getD _ _ _ h, Nat.add_mod_right, outWord_zero, outWord_zero]
  rintro ⟨h1, h2⟩
  rw [h1, pow_add, ← mul_assoc] at h2
  have h3 : MULT_B ^ pool.length = 1 := by
    refine (mul_odd_inj' (INIT_B * MULT_B ^ i) (genConst_odd i) ?_)
    rw [one_mul, mul_comm, ← h2]
  have := Nat.le_of_dvd hn.1 (multB_order ▸ orderOf_dvd_of_pow_eq_one h3)
  omega

theorem append_zero {a b : U32} : a ++ b = (0 : U64) ↔ a = 0 ∧ b = 0 := by
  constructor
  · intro h
    have h1 := congrArg (BitVec.extractLsb' 32 32) h
    have h2 := congrArg (BitVec.extractLsb' 0 32) h
    rw [BitVec.extractLsb'_append_eq_left] at h1
    rw [BitVec.extractLsb'_append_eq_right] at h2
    exact ⟨h1.trans (by decide), h2.trans (by decide)⟩
  · rintro ⟨rfl, rfl⟩
    decide

theorem mk_pool {e : Ent} {key : List Int} {n : Nat} {c : Int} {s : SeedSeq.SeedSeq} (h : mk e key n c = .ok s) : s.pool.length = n ∧ 4 ≤ n := by
  by_cases hn : n < 4
  · rw [mk_small _ _ _ _ hn] at h; cases h
  · rw [mk, if_neg (by omega)] at h
    refine ⟨?_, by omega⟩
    cases h1 : coerce e with
    | error _ => rw [h1] at h; cases h
    | ok l =>
      cases h2 : coerce (.seq (key.map .int)) with
      | error _ => rw [h1, h2] at h; cases h
      | ok l' =>
        rw [h1, h2] at h
        injection h with h
        rw [← h]
        exact mixEntropy_len _ _

/-- If there are more 32-bit words from word `64-bit` word `j` on than words in the pool, one is not zero. -/
theorem words_not_zero {e : Ent} {key : List Int} {n : Nat} {c : Int} {s : SeedSeq.SeedSeq} (h : mk e key n c = .ok s) (k j l : Nat) (hl : l ≤ k)
    (hj : 2 * j + n < 2 * l) (hk : n < 2 ^ 30) : ∃ i < l, j ≤ i ∧ s.words k i ≠ 0 := by
  obtain ⟨hp, hn⟩ := mk_pool h
  by_contra hc
  have hz : ∀ i, j ≤ i → i < l → s.words k i = 0 := fun i h1 h2 => by
    by_contra h3; exact hc ⟨i, h2, h1, h3⟩
  have h32 : ∀ m, 2 * j ≤ m → m < 2 * l → (generate32 s.pool (2 * k)).getD m 0 = 0 := fun m h1 h2 => by
    have := hz (m / 2) (by omega) (by omega)
    rw [SeedSeq.SeedSeq.words, (C45_pairs s.pool k (m / 2) (by omega)).2, append_zero] at this
    rcases Nat.mod_two_eq_zero_or_one m with hm | hm
    · rw [show m = 2 * (m / 2) by omega]; exact this.2
    · rw [show m = 2 * (m / 2) + 1 by omega]; exact this.1
  refine C100_pair_not_zero s.pool (by omega) (2 * k) (2 * j) (by omega) ⟨h32 _ le_rfl (by omega), h32 _ (by omega) (by omega)⟩

/-! ### Full period from every seed -/

theorem alone_period {Par Seed St Org γ : Type} {C : GCls Par Seed St} {S : SSpec Par Seed Org} {p : Par} {sd : Seed} {o : Org} {op : Op} {v : Nat → γ}
    {g : γ → Out} (hg : Function.Injective g)
    (hA : ∀ rest : List (Nat × Op), C.program (.new p sd :: rest.map fun r => .draw r.1 r.2) = S.program (.new p sd :: rest.map fun r => .draw r.1 r.2))
    (hs : S.start p sd = .ok o) (hd : ∀ n, S.draw o op (n, none) = (g (v n), n + 1, none)) (K d : Nat) :
    TailPeriod (C.alone p sd op) K d ↔ TailPeriod v K d := by
  simp only [TailPeriod, alone_val hA hs hd]
  refine forall_congr' fun n => forall_congr' fun _ => ⟨fun h => ?_, fun h => by rw [h]⟩
  exact hg (SRes.val.inj (Option.some.inj h))

theorem xo256_alone_period (g : Nat → U64) (hg : ∃ i < 4, g i ≠ 0) (K d : Nat) : TailPeriod (xo256Cls.alone () g .u64) K d ↔ 2 ^ 256 - 1 ∣ d := by
  rw [alone_period (S := xo256Spec) o64_inj (fun _ => C95_xoshiro256 _) rfl (fun _ => rfl)]
  refine C78_xoshiro256_period _ (fun hz => ?_) K d
  injection hz with h0 h1 h2 h3
  obtain ⟨i, hi, hw⟩ := hg
  interval_cases i <;> exact hw ‹_›

theorem xo512_alone_period (g : Nat → U64) (hg : ∃ i < 8, g i ≠ 0) (K d : Nat) : TailPeriod (xo512Cls.alone () g .u64) K d ↔ 2 ^ 512 - 1 ∣ d := by
  rw [alone_period (S := xo512Spec) o64_inj (fun _ => C95_xoshiro512 _) rfl (fun _ => rfl)]
  refine C78_xoshiro512_period _ (fun hz => ?_) K d
  injection hz with h0 h1 h2 h3 h4 h5 h6 h7
  obtain ⟨i, hi, hw⟩ := hg
  interval_cases i <;> exact hw ‹_›

theorem xs1024_alone_period (g : Nat → U64) (hg : ∃ i < 16, g i ≠ 0) (K d : Nat) : TailPeriod (xs1024Cls.alone () g .u64) K d ↔ 2 ^ 1024 - 1 ∣ d := by
  rw [alone_period (S := xs1024Spec) (o := (0, g)) o64_inj (fun _ => C95_xorshift1024_partial _) rfl (fun _ => rfl)]
  obtain ⟨i, hi, hw⟩ := hg
  exact C78_xorshift1024_period _ ⟨⟨i, hi⟩, hw⟩ K d

theorem lxm_alone_period (b : U64) (g : Nat → U64) (hg : ∃ i < 4, g i ≠ 0) (K d : Nat) :
    TailPeriod (lxmCls.alone b g .u64) K d ↔ (2 ^ 256 - 1) * 2 ^ 64 ∣ d := by
  have hz : ¬(g 0 = 0 ∧ g 1 = 0 ∧ g 2 = 0 ∧ g 3 = 0) := by
    rintro ⟨h0, h1, h2, h3⟩
    obtain ⟨i, hi, hw⟩ := hg
    interval_cases i <;> exact hw ‹_›
  rw [alone_period (S := lxmSpec) (o := (b ||| 1, g)) o64_inj (fun _ => C95_lxm _) (if_neg hz) (fun _ => rfl)]
  refine C78_lxm_period _ (fun hz' => hz ?_) (Pcg.or_one_odd' b) K d
  injection hz' with h0 h1 h2 h3
  exact ⟨h0, h1, h2, h3⟩

theorem xoro_alone_period (pp : Bool) (g : Nat → U64) (hg : ∃ i < 2, g i ≠ 0) (K d : Nat) :
    TailPeriod (xoroCls.alone pp g .u64) K d ↔ 2 ^ 128 - 1 ∣ d := by
  rw [alone_period (S := xoroSpec) (o := (pp, g)) o64_inj (fun _ => C95_xoroshiro128 _) rfl (fun _ => rfl)]
  refine C78_xoroshiro128_period pp _ (fun hz => ?_) K d
  injection hz with h0 h1
  obtain ⟨i, hi, hw⟩ := hg
  interval_cases i <;> exact hw ‹_›

theorem romu_trio_never (g : Nat → U64) (hg : ∃ i < 4, 1 ≤ i ∧ g i ≠ 0) (k : Nat) :
    ¬((stepOf romuTrioNext)^[k] (romuFromSeq false (g 0) (g 1) (g 2) (g 3))).stuck false := by
  refine C55_trio_partial _ _ _ _ (fun hz => ?_) k
  obtain ⟨i, hi, hi', hw⟩ := hg
  obtain ⟨h1, h2, h3⟩ := hz
  interval_cases i <;> exact hw ‹_›

/-- C100 for Xoshiro256: every seed sequence with a pool of fewer than 8 words (the default is 4) gives outputs of the full period. -/
theorem C100_xoshiro256_partial (e : Ent) (key : List Int) (n : Nat) (c : Int) (s : SeedSeq.SeedSeq) (h : mk e key n c = .ok s) (hn : n < 8) (K d : Nat) :
    TailPeriod (xo256Cls.alone () (s.words 4) .u64) K d ↔ 2 ^ 256 - 1 ∣ d := by
  obtain ⟨i, hi, _, hw⟩ := words_not_zero h 4 0 4 le_rfl (by omega) (by omega)
  exact xo256_alone_period _ ⟨i, hi, hw⟩ K d

/-- C100 for Xoshiro512: a pool of fewer than 16 words. -/
theorem C100_xoshiro512_partial (e : Ent) (key : List Int) (n : Nat) (c : Int) (s : SeedSeq.SeedSeq) (h : mk e key n c = .ok s) (hn : n < 16) (K d : Nat) :
    TailPeriod (xo512Cls.alone () (s.words 8) .u64) K d ↔ 2 ^ 512 - 1 ∣ d := by
  obtain ⟨i, hi, _, hw⟩ := words_not_zero h 8 0 8 le_rfl (by omega) (by omega)
  exact xo512_alone_period _ ⟨i, hi, hw⟩ K d

/-- C100 for Xorshift1024: a pool of fewer than 32 words. -/
theorem C100_xorshift1024_partial (e : Ent) (key : List Int) (n : Nat) (c : Int) (s : SeedSeq.SeedSeq) (h : mk e key n c = .ok s) (hn : n < 32) (K d : Nat) :
    TailPeriod (xs1024Cls.alone () (s.words 16) .u64) K d ↔ 2 ^ 1024 - 1 ∣ d := by
  obtain ⟨i, hi, _, hw⟩ := words_not_zero h 16 0 16 le_rfl (by omega) (by omega)
  exact xs1024_alone_period _ ⟨i, hi, hw⟩ K d

/-- C100 for LXM: a pool of fewer than 8 words. Seeding ends, and the outputs have the full period. -/
theorem C100_lxm_partial (b : U64) (e : Ent) (key : List Int) (n : Nat) (c : Int) (s : SeedSeq.SeedSeq) (h : mk e key n c = .ok s) (hn : n < 8) (K d : Nat) :
    TailPeriod (lxmCls.alone b (s.words 5) .u64) K d ↔ (2 ^ 256 - 1) * 2 ^ 64 ∣ d := by
  obtain ⟨i, hi, _, hw⟩ := words_not_zero h 5 0 4 (by decide) (by omega) (by omega)
  exact lxm_alone_period b _ ⟨i, hi, hw⟩ K d

/-- C100 for the trio variant of Romu, which has no known period: with a pool of fewer than 6 words it is never stuck at zero. -/
theorem C100_romu_trio_partial (e : Ent) (key : List Int) (n : Nat) (c : Int) (s : SeedSeq.SeedSeq) (h : mk e key n c = .ok s) (hn : n < 6) (k : Nat) :
    ¬((stepOf romuTrioNext)^[k] (romuFromSeq false (s.words 4 0) (s.words 4 1) (s.words 4 2) (s.words 4 3))).stuck false := by
  obtain ⟨i, hi, hi', hw⟩ := words_not_zero h 4 1 4 le_rfl (by omega) (by omega)
  exact romu_trio_never _ ⟨i, hi, hi', hw⟩ k

example : ∃ s, mk (.int 12345) [3] 4 0 = .ok s :=
  ⟨_, mk_ok _ _ 4 _ [12345] _ (by decide) (by rw [coerce_int]; decide +kernel) (coerceAll_small _ (by decide))⟩

/-! ### The seeds that fail -/

/-- The pool from which the first `n` words generated are all zero. -/
def zeroPool (n : Nat) : List U32 := (List.range n).map fun i => INIT_B * MULT_B ^ i

theorem mk_words {a n : Nat} {l : List U32} (hn : 4 ≤ n) (h : intToWords a = .ok l) :
    mk (.int a) [] n 0 = .ok ⟨.int a, [], n, 0, mixEntropy (List.replicate n 0) l⟩ := by
  rw [mk_ok _ _ n _ l [] hn (by rw [coerce_int, h]) coerce_nil, assemble]
  simp

/-- The integer seed for which the default pool, of 4 words, is `zeroPool 4`. -/
def zero4 : Nat := 317152452167715789935752102952713236406
/-- The integer seed for which a pool of 8 words is `zeroPool 8`. -/
def zero8 : Nat := 21394598002431031740353888454147857978690823374890166528052389012478981687242
/-- The same for 16 words. -/
def zero16 : Nat := 3084596031625245458354125052360747006241896127624406976882134733924600479628823540365299266321278059425097302135034800689573001521429902607578221737609653
/-- The same for 32 words. -/
def zero32 : Nat := 58618198655966111234830936740751944965947400062270470532881943123989203653516795215311927226960774868760089738888193481644835958758066380951481939638049769186549288004747565348561187547226149704653094119315061432374180500649864738601290069515091673460423440460864234965167519255849207499451734894651864554747
/-- The integer seed for which a pool of 8 words differs from `zeroPool 8` in its first word only, which is 0. -/
def zeroRomu : Nat := 2057375870789020466050779814599843506103314771691151457334798847099480328889

theorem zeroPool_word {n k i : Nat} (hi : 2 * i + 1 < n) (hk : i < k) : (generate64 (zeroPool n) k).getD i 0 = 0 := by
  have hl : (zeroPool n).length = n := by simp [zeroPool]
  rw [(C45_pairs _ k i hk).2, append_zero, generate32_getD _ _ _ (by omega), generate32_getD _ _ _ (by omega), hl, Nat.mod_eq_of_lt hi,
    Nat.mod_eq_of_lt (by omega), outWord_zero, outWord_zero]
  constructor <;> simp [zeroPool, List.getD_eq_getElem?_getD, hi, show 2 * i < n by omega]

/-- A seed whose words are zero, from the words of the seed. -/
theorem zero_seed {a n : Nat} {l : List U32} (hn : 4 ≤ n) (hl : intToWords a = .ok l) (hp : mixEntropy (List.replicate n 0) l = zeroPool n) :
    ∃ s, mk (.int a) [] n 0 = .ok s ∧ ∀ k i, i < k → 2 * i + 1 < n → s.words k i = 0 :=
  ⟨_, mk_words hn hl, fun k i hk hi => by
    show (generate64 (mixEntropy _ _) k).getD i 0 = 0
    rw [hp, zeroPool_word hi hk]⟩

theorem zero4_words : ∃ s, mk (.int zero4) [] ((4 : Nat) : Int) 0 = .ok s ∧ ∀ k i, i < k → 2 * i + 1 < 4 → s.words k i = 0 :=
  zero_seed (l := [391819190, 2319448171, 693236987, 4003026728]) (by decide) (by decide +kernel) (by decide +kernel)

theorem zero8_words : ∃ s, mk (.int zero8) [] ((8 : Nat) : Int) 0 = .ok s ∧ ∀ k i, i < k → 2 * i + 1 < 8 → s.words k i = 0 :=
  zero_seed (l := [2134230986, 385014455, 2761844713, 2861211185, 2408301501, 1065821115, 90280302, 793569745]) (by decide) (by decide +kernel) (by decide +kernel)

theorem zero16_words : ∃ s, mk (.int zero16) [] ((16 : Nat) : Int) 0 = .ok s ∧ ∀ k i, i < k → 2 * i + 1 < 16 → s.words k i = 0 :=
  zero_seed (l := [493291957, 4127728855, 1420998875, 1249814783, 1504999692, 1633234329, 909278938, 3876695243, 954537909, 1110005798, 4254005688, 2218931462, 4131889182, 2049691102, 1124100619, 988098811]) (by decide) (by decide +kernel) (by decide +kernel)

theorem zero32_words : ∃ s, mk (.int zero32) [] ((32 : Nat) : Int) 0 = .ok s ∧ ∀ k i, i < k → 2 * i + 1 < 32 → s.words k i = 0 :=
  zero_seed (l := [4257520891, 2063744425, 3285723685, 19121558, 946989537, 2628207100, 3610632348, 2752711755, 2253072747, 2036003623, 2215087552, 936478725, 2107966288, 960027707, 2629681463, 3089447055, 1428795863, 1427533694, 4181815172, 1587862462, 3456564693, 3678329246, 3728875032, 2283710132, 1892769179, 520831058, 4140983377, 1327561474, 1029958356, 3223864110, 33804976, 1400479544]) (by decide) (by decide +kernel) (by decide +kernel)

/-- C100 for Xoroshiro128, for the integers below `2 ** 128` and the default pool: all of them but one. -/
theorem C100_xoroshiro128_partial (pp : Bool) (a : Nat) (ha : a < 2 ^ 128) (hz : a ≠ 317152452167715789935752102952713236406) (s : SeedSeq.SeedSeq)
    (h : mk (.int a) [] (4 : Nat) 0 = .ok s) (K d : Nat) :
    TailPeriod (xoroCls.alone pp (s.words 2) .u64) K d ↔ 2 ^ 128 - 1 ∣ d := by
  refine xoro_alone_period pp _ ?_ K d
  by_contra hc
  have hs : ∀ i < 2, s.words 2 i = 0 := fun i hi => by
    by_contra h3; exact hc ⟨i, hi, h3⟩
  obtain ⟨t, ht, hw⟩ := zero4_words
  refine (C42_generated_words_differ 4 a zero4 (by simpa using ha) (by decide) hz s t h ht).2 2 (by decide) ?_
  refine List.ext_getElem? fun i => ?_
  have l1 := (C45_pairs s.pool 2 0 (by decide)).1
  have l2 := (C45_pairs t.pool 2 0 (by decide)).1
  by_cases hi : i < 2
  · have e1 := hs i hi
    have e2 := hw 2 i hi (by omega)
    rw [SeedSeq.SeedSeq.words, List.getD_eq_getElem?_getD, List.getElem?_eq_getElem (by omega)] at e1 e2
    rw [List.getElem?_eq_getElem (by omega), List.getElem?_eq_getElem (by omega)]
    exact congrArg some (e1.trans e2.symm)
  · rw [List.getElem?_eq_none (by omega), List.getElem?_eq_none (by omega)]

example : ∃ s, mk (.int (2 ^ 64 - 1 : Nat)) [] (4 : Nat) 0 = .ok s := C42_accepts 4 _ (by decide)

/-- C100 fails for Xoroshiro128 with an integer seed and the default pool: both variants return 0 for ever. -/
theorem not_C100_xoroshiro128 (pp : Bool) : ∃ s, mk (.int 317152452167715789935752102952713236406) [] 4 0 = .ok s ∧
    ∀ n, xoroCls.alone pp (s.words 2) .u64 n = some (.val (.o64 0)) := by
  obtain ⟨s, hs, hw⟩ := zero4_words
  refine ⟨s, hs, fun n => ?_⟩
  rw [alone_val (S := xoroSpec) (o := (pp, s.words 2)) (w := fun n => .o64 (nthDraw (xoroNext pp) n ⟨s.words 2 0, s.words 2 1⟩))
    (fun _ => C95_xoroshiro128 _) rfl (fun _ => rfl), hw 2 0 (by decide) (by decide), hw 2 1 (by decide) (by decide), nthDraw,
    Function.iterate_fixed (C31_xoroshiro128_zero_fixed pp)]
  cases pp <;> decide

/-- C100 fails for Xoshiro256 with a pool of 8 words. -/
theorem not_C100_xoshiro256 : ∃ s, mk (.int zero8) [] (8 : Nat) 0 = .ok s ∧ ∀ n, xo256Cls.alone () (s.words 4) .u64 n = some (.val (.o64 0)) := by
  obtain ⟨s, hs, hw⟩ := zero8_words
  refine ⟨s, hs, fun n => ?_⟩
  rw [alone_val (S := xo256Spec) (w := fun n => .o64 (nthDraw xosh256Next n ⟨s.words 4 0, s.words 4 1, s.words 4 2, s.words 4 3⟩))
    (fun _ => C95_xoshiro256 _) rfl (fun _ => rfl), hw 4 0 (by decide) (by decide), hw 4 1 (by decide) (by decide), hw 4 2 (by decide) (by decide),
    hw 4 3 (by decide) (by decide), nthDraw, Function.iterate_fixed (by decide)]
  decide

/-- C100 fails for Xoshiro512 with a pool of 16 words. -/
theorem not_C100_xoshiro512 : ∃ s, mk (.int zero16) [] (16 : Nat) 0 = .ok s ∧ ∀ n, xo512Cls.alone () (s.words 8) .u64 n = some (.val (.o64 0)) := by
  obtain ⟨s, hs, hw⟩ := zero16_words
  refine ⟨s, hs, fun n => ?_⟩
  rw [alone_val (S := xo512Spec) (w := fun n => .o64 (nthDraw xosh512Next n ⟨s.words 8 0, s.words 8 1, s.words 8 2, s.words 8 3, s.words 8 4, s.words 8 5,
      s.words 8 6, s.words 8 7⟩)) (fun _ => C95_xoshiro512 _) rfl (fun _ => rfl), hw 8 0 (by decide) (by decide), hw 8 1 (by decide) (by decide),
    hw 8 2 (by decide) (by decide), hw 8 3 (by decide) (by decide), hw 8 4 (by decide) (by decide), hw 8 5 (by decide) (by decide),
    hw 8 6 (by decide) (by decide), hw 8 7 (by decide) (by decide), nthDraw, Function.iterate_fixed (by decide)]
  decide

theorem xs1024_zeros {g : Nat → U64} (hz : ∀ i < 16, g i = 0) (n : Nat) : xs1024Cls.alone () g .u64 n = some (.val (.o64 0)) := by
  rw [alone_val (S := xs1024Spec) (o := (0, g)) (w := fun n => .o64 (nthDraw xors1024Next n ⟨fun i => g i, 0⟩))
    (fun _ => C95_xorshift1024_partial _) rfl (fun _ => rfl)]
  have h0 : (fun i : Fin 16 => g i) = fun _ => 0 := funext fun i => hz i i.isLt
  have h1 : ∀ n, ∃ p, (stepOf xors1024Next)^[n] ⟨fun _ => 0, 0⟩ = ⟨fun _ => 0, p⟩ := fun n => by
    induction n with
    | zero => exact ⟨0, rfl⟩
    | succ n ih =>
      obtain ⟨p, hp⟩ := ih
      exact ⟨p + 1, by rw [Function.iterate_succ_apply', hp, C31_xorshift1024_zero_fixed]⟩
  obtain ⟨p, hp⟩ := h1 n
  rw [h0, nthDraw, hp]
  have : ∀ p : Fin 16, (xors1024Next ⟨fun _ => 0, p⟩).1 = 0 := by decide +kernel
  rw [this]

/-- C100 fails for Xorshift1024 with a pool of 32 words. -/
theorem not_C100_xorshift1024 : ∃ s, mk (.int zero32) [] (32 : Nat) 0 = .ok s ∧ ∀ n, xs1024Cls.alone () (s.words 16) .u64 n = some (.val (.o64 0)) := by
  obtain ⟨s, hs, hw⟩ := zero32_words
  exact ⟨s, hs, xs1024_zeros fun i hi => hw 16 i hi (by omega)⟩

theorem lxm_hangs {g : Nat → U64} (b : U64) (hz : g 0 = 0 ∧ g 1 = 0 ∧ g 2 = 0 ∧ g 3 = 0) : lxmCls.new b g = .hang := by
  simp only [lxmCls, lxmReseed_zero hz, Option.map_none, madeOf]

/-- C100 fails for LXM with a pool of 8 words: the constructor never returns. -/
theorem not_C100_lxm (b : U64) : ∃ s, mk (.int zero8) [] (8 : Nat) 0 = .ok s ∧ lxmCls.new b (s.words 5) = .hang := by
  obtain ⟨s, hs, hw⟩ := zero8_words
  exact ⟨s, hs, lxm_hangs b ⟨hw 5 0 (by decide) (by decide), hw 5 1 (by decide) (by decide), hw 5 2 (by decide) (by decide), hw 5 3 (by decide) (by decide)⟩⟩

theorem romu_zeros {g : Nat → U64} (h0 : g 0 ≠ 0) (h1 : g 1 = 0) (h2 : g 2 = 0) (h3 : g 3 = 0) (n : Nat) :
    romuCls.alone false g .u64 n = some (.val (.o64 0)) := by
  rw [alone_val (S := romuSpec) (o := (false, g)) (w := fun n => .o64 (nthDraw romuTrioNext n (romuFromSeq false (g 0) (g 1) (g 2) (g 3))))
    (fun _ => C95_romu _) rfl (fun _ => rfl), h1, h2, h3, (not_C55_trio (g 0) h0 n).2]

theorem romu_words : generate64 (mixEntropy (List.replicate 8 0) [427313849, 1573454742, 2250755280, 3192193573, 3918076490, 373330934, 1469159029, 76312312]) 4 = [530770103, 0, 0, 0] := by
  decide +kernel

/-- C100 fails for the trio variant of Romu with a pool of 8 words. -/
theorem not_C100_romu_trio : ∃ s, mk (.int zeroRomu) [] (8 : Nat) 0 = .ok s ∧ ∀ n, romuCls.alone false (s.words 4) .u64 n = some (.val (.o64 0)) := by
  refine ⟨_, mk_words (l := [427313849, 1573454742, 2250755280, 3192193573, 3918076490, 373330934, 1469159029, 76312312]) (by decide) (by decide +kernel), fun n => ?_⟩
  have h : ∀ i, (⟨.int zeroRomu, [], 8, 0, mixEntropy (List.replicate 8 0) [427313849, 1573454742, 2250755280, 3192193573, 3918076490, 373330934, 1469159029, 76312312]⟩ : SeedSeq.SeedSeq).words 4 i = [530770103, 0, 0, 0].getD i 0 := fun i => by
    show (generate64 (mixEntropy _ _) 4).getD i 0 = _
    rw [romu_words]
  exact romu_zeros (by rw [h]; decide) (by rw [h]; rfl) (by rw [h]; rfl) (by rw [h]; rfl) n

end Verif
