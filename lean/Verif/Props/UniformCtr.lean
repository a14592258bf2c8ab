import Verif.Common.CountsO
import Verif.Props.CtrEquidist

/-! C94 for SPECK128, AESCounter, Philox and ThreeFry: the doubles, the 32-bit halves of 64-bit words and the 64-bit pairs of 32-bit words. -/

namespace Verif
open Verif.Orbit Verif.Doubles

/-! ### Streams made of blocks -/

section
variable {γ : Type} {u : Nat → γ} {N M : Nat}

/-- The exact period, counted from position `p`. -/
theorem blocks_period_at (hN : 0 < N) (hM : 0 < M) (hNM : N ∣ M) (hper : ∀ k, u (k + N * M) = u k)
    (hinj : ∀ i j, (∀ n < N, u (N * i + n) = u (N * j + n)) → i ≡ j [MOD M]) (p K d : Nat) : TailPeriod (fun k => u (p + k)) K d ↔ N * M ∣ d := by
  rw [← Blocks.period hN hM hNM hper hinj (p + K) d]
  constructor
  · intro h1 k hk
    have := h1 (k - p) (by omega)
    dsimp only at this
    rwa [show p + (k - p + d) = k + d by omega, show p + (k - p) = k by omega] at this
  · intro h1 k hk
    show u (p + (k + d)) = u (p + k)
    rw [← Nat.add_assoc]
    exact h1 _ (by omega)

end

section
variable {u : Nat → U64} {N M : Nat} (hper : ∀ k, u (k + N * M) = u k)
  (hinj : ∀ i j, (∀ n < N, u (N * i + n) = u (N * j + n)) → i ≡ j [MOD M])

include hper in
theorem halves_per (k : Nat) : halfOf u (k + 2 * N * M) = halfOf u k := by
  have e : (k + 2 * N * M) / 2 = k / 2 + N * M := by rw [Nat.mul_assoc]; omega
  have f : (k + 2 * N * M) % 2 = k % 2 := by rw [Nat.mul_assoc]; omega
  rw [halfOf, halfOf, e, f, hper]

include hinj in
theorem halves_inj (i j : Nat) (h : ∀ n < 2 * N, halfOf u (2 * N * i + n) = halfOf u (2 * N * j + n)) : i ≡ j [MOD M] := by
  refine hinj i j fun n hn => split64.injective ?_
  have h0 := h (2 * n) (by omega)
  have h1 := h (2 * n + 1) (by omega)
  have e : ∀ i, 2 * N * i + 2 * n = 2 * (N * i + n) := fun i => by ring
  rw [e, e, halfOf, halfOf, if_pos (by omega), if_pos (by omega), Nat.mul_div_cancel_left _ (by decide), Nat.mul_div_cancel_left _ (by decide)] at h0
  rw [← Nat.add_assoc, ← Nat.add_assoc, e, e, halfOf, halfOf, if_neg (by omega), if_neg (by omega), show ∀ a, (2 * a + 1) / 2 = a by intro a; omega,
    show ∀ a, (2 * a + 1) / 2 = a by intro a; omega] at h1
  exact Prod.ext h1 h0

/-- Doubles and halves of a 64-bit generator that returns all blocks of `N` words. -/
theorem ctr64_uniform {σ : Type} {nx : σ → Option (U64 × σ)} {b : Buf σ} {p : Nat} (hN : 0 < N) (hM : Nat.card U64 ^ N = M) (hNM : 2 * N ∣ M)
    (hper : ∀ k, u (k + N * M) = u k) (hinj : ∀ i j, (∀ n < N, u (N * i + n) = u (N * j + n)) → i ≡ j [MOD M])
    (hu : ∀ k, nthO nx k b.core = some (u (p + k))) :
    (∀ m < 2 ^ 53, Nat.card {k // k < N * M ∧ nthO (dbl64O nx) k b.core = some m} = N * 2 ^ (64 * (N - 1)) * 2 ^ 11) ∧
    (b.has = false → (∀ v : U32, Nat.card {k // k < 2 * N * M ∧ nthO (next32O nx) k b = some v} = 2 * N * 2 ^ (32 * (2 * N - 1))) ∧
      ∀ K d, TailPeriod (fun k => nthO (next32O nx) k b) K d ↔ 2 * N * M ∣ d) := by
  have hM0 : 0 < M := by rw [← hM, card_bitVec]; exact Nat.pow_pos (Nat.two_pow_pos _)
  refine ⟨fun m hm => ?_, fun hb => ?_⟩
  · have h := card_of_counts (u := fun k => u (p + k)) (N := N * M) (C := N * 2 ^ (64 * (N - 1))) (e := 0) (z := 0) (Nat.zero_le _)
      (fun x : U64 => (x >>> 11).toNat = m) (fun x _ => by
        rw [Blocks.count hN hM hper hinj p x, card_bitVec, ← pow_mul, ite_self, Nat.sub_zero])
    rw [card_upper_bits 11 (by decide) m hm, ite_self, Nat.sub_zero] at h
    simp only [dbl64O_nth hu, Option.some_inj]
    exact h
  · have hs : ∀ k, halfOf (fun k => u (p + k)) k = halfOf u (2 * p + k) := fun k => by
      rw [halfOf, halfOf, show (2 * p + k) % 2 = k % 2 by omega, show (2 * p + k) / 2 = p + k / 2 by omega]
    have hn : ∀ k, nthO (next32O nx) k b = some (halfOf u (2 * p + k)) := fun k => by rw [next32O_nth hu hb, hs]
    have hM' : Nat.card U32 ^ (2 * N) = M := by rw [← hM, card_bitVec, card_bitVec, pow_mul, ← pow_mul 2 32 2]
    refine ⟨fun v => ?_, fun K d => ?_⟩
    · have h := Blocks.count (N := 2 * N) (by omega) hM' (halves_per hper) (halves_inj hinj) (2 * p) v
      rw [card_bitVec, ← pow_mul] at h
      simp only [hn, Option.some_inj]
      exact h
    · rw [← blocks_period_at (N := 2 * N) (by omega) hM0 hNM (halves_per hper) (halves_inj hinj) (2 * p) K d]
      simp only [TailPeriod, hn, Option.some_inj]

end

/-- The successive pairs of a sequence. -/
def pairOf {γ : Type} (u : Nat → γ) (k : Nat) : γ × γ := (u (2 * k), u (2 * k + 1))

/-- Doubles and 64-bit pairs of a 32-bit generator that returns all blocks of `2 N` words, from an even position. -/
theorem ctr32_uniform {σ : Type} {nx : σ → Option (U32 × σ)} {s : σ} {u : Nat → U32} {p N M : Nat} (hN : 0 < N) (hM : Nat.card U32 ^ (2 * N) = M)
    (hNM : N ∣ M) (hper : ∀ k, u (k + 2 * N * M) = u k) (hinj : ∀ i j, (∀ n < 2 * N, u (2 * N * i + n) = u (2 * N * j + n)) → i ≡ j [MOD M])
    (hp : p % 2 = 0) (hu : ∀ k, nthO nx k s = some (u (p + k))) (o : Bool) :
    (∀ m < 2 ^ 53, Nat.card {k // k < N * M ∧ nthO (dblCallsO nx) k s = some m} = N * 2 ^ (64 * (N - 1)) * 2 ^ 11) ∧
    (∀ x : U64, Nat.card {k // k < N * M ∧ nthO (twoCallsO nx o) k s = some x} = N * 2 ^ (64 * (N - 1))) ∧
    ∀ K d, TailPeriod (fun k => nthO (twoCallsO nx o) k s) K d ↔ N * M ∣ d := by
  obtain ⟨q, rfl⟩ : ∃ q, p = 2 * q := ⟨p / 2, by omega⟩
  have hM0 : 0 < M := by rw [← hM, card_bitVec]; exact Nat.pow_pos (Nat.two_pow_pos _)
  -- the pairs are blocks of `N` pairs
  have hM' : Nat.card (U32 × U32) ^ N = M := by rw [← hM, pow_mul, sq, Nat.card_prod]
  have hper' : ∀ k, pairOf u (k + N * M) = pairOf u k := fun k => by
    show (u (2 * (k + N * M)), u (2 * (k + N * M) + 1)) = (u (2 * k), u (2 * k + 1))
    rw [show 2 * (k + N * M) = 2 * k + 2 * N * M by ring, show 2 * k + 2 * N * M + 1 = 2 * k + 1 + 2 * N * M by ring, hper, hper]
  have hinj' : ∀ i j, (∀ n < N, pairOf u (N * i + n) = pairOf u (N * j + n)) → i ≡ j [MOD M] :=
    fun i j h => hinj i j fun n hn => by
      have h' := h (n / 2) (by omega)
      simp only [pairOf, Prod.mk.injEq] at h'
      have e : ∀ i, 2 * (N * i + n / 2) = 2 * N * i + 2 * (n / 2) := fun i => by ring
      rw [e, e] at h'
      rcases Nat.mod_two_eq_zero_or_one n with h2 | h2
      · rw [show n = 2 * (n / 2) by omega]; exact h'.1
      · rw [show n = 2 * (n / 2) + 1 by omega, ← Nat.add_assoc, ← Nat.add_assoc]; exact h'.2
  have hc : ∀ v : U32 × U32, Nat.card {k // k < N * M ∧ pairOf u (q + k) = v} = N * 2 ^ (64 * (N - 1)) - if v = 0 then 0 else 0 :=
    fun v => by rw [Blocks.count hN hM' hper' hinj' q v, Nat.card_prod, card_bitVec, ← sq, ← pow_mul 2 32 2, ← pow_mul, ite_self, Nat.sub_zero]
  have e : ∀ k, 2 * q + 2 * k = 2 * (q + k) := fun k => by ring
  refine ⟨fun m hm => ?_, fun x => ?_, fun K d => ?_⟩
  · have h := card_of_counts (Nat.zero_le _) (fun v : U32 × U32 => dbl32 v.1 v.2 = m) (fun x _ => hc x)
    rw [card_dbl32 m hm, ite_self, Nat.sub_zero] at h
    simp only [dblCallsO_nth hu, Option.some_inj, ← Nat.add_assoc, e]
    exact h
  · have h := card_of_counts (Nat.zero_le _) (fun v : U32 × U32 => joinOf o v.1 v.2 = x) (fun x _ => hc x)
    rw [card_join, ite_self, Nat.sub_zero, Nat.mul_one] at h
    simp only [twoCallsO_nth hu, Option.some_inj, ← Nat.add_assoc, e]
    exact h
  · rw [← blocks_period_at hN hM0 hNM hper' hinj' q K d]
    have inj : ∀ a b c d : U32, joinOf o a b = joinOf o c d ↔ (a, b) = (c, d) := fun a b c d => by
      constructor
      · intro h
        have h1 := card_join o (joinOf o c d)
        have : Subsingleton {p : U32 × U32 // joinOf o p.1 p.2 = joinOf o c d} := (Nat.card_eq_one_iff_unique.1 h1).1
        have := this.elim (⟨(a, b), h⟩ : {p : U32 × U32 // joinOf o p.1 p.2 = joinOf o c d}) ⟨(c, d), rfl⟩
        exact congrArg Subtype.val this
      · intro h
        rw [Prod.mk.injEq] at h
        rw [h.1, h.2]
    simp only [TailPeriod, twoCallsO_nth hu, Option.some_inj, inj, ← Nat.add_assoc, e, pairOf]

/-! ### SPECK128 and AESCounter -/

/-- C94: from every reachable SPECK128 state every double occurs `2^76` times in `2^129` doubles; every 32-bit value `2^98` times in `2^130`
32-bit draws, of which `2^130` is the exact period. -/
theorem C94_speck (b : Buf Speck) (h : b.core.Reach) :
    (∀ m < 2 ^ 53, Nat.card {k // k < 2 ^ 129 ∧ nthO (dbl64O speckNext) k b.core = some m} = 2 ^ 76) ∧
    (b.has = false → (∀ v : U32, Nat.card {k // k < 2 ^ 130 ∧ nthO (next32O speckNext) k b = some v} = 2 ^ 98) ∧
      ∀ K d, TailPeriod (fun k => nthO (next32O speckNext) k b) K d ↔ 2 ^ 130 ∣ d) := by
  obtain ⟨rk, r, p, hp⟩ := h.at
  have h := ctr64_uniform (nx := speckNext) (b := b) (by decide) card_u64_sq (by decide) (ctrWord_period _) (ctrWord_inj (speckEnc_injective rk r.toNat))
    (nthO_ctrWord (nthO_of_invariant speckNext (SpeckAt rk r) _ (speckNext_at rk r) b.core p hp))
  exact h

/-- C94: the same for AESCounter. -/
theorem C94_aes (b : Buf Aes) (h : b.core.Reach) :
    (∀ m < 2 ^ 53, Nat.card {k // k < 2 ^ 129 ∧ nthO (dbl64O aesNext) k b.core = some m} = 2 ^ 76) ∧
    (b.has = false → (∀ v : U32, Nat.card {k // k < 2 ^ 130 ∧ nthO (next32O aesNext) k b = some v} = 2 ^ 98) ∧
      ∀ K d, TailPeriod (fun k => nthO (next32O aesNext) k b) K d ↔ 2 ^ 130 ∣ d) := by
  obtain ⟨rk, p, hp⟩ := h.at
  have h := ctr64_uniform (nx := aesNext) (b := b) (by decide) card_u64_sq (by decide) (ctrWord_period _) (ctrWord_inj (aesEnc_injective rk))
    (nthO_ctrWord (nthO_of_invariant aesNext (AesAt rk) _ (aesNext_at rk) b.core p hp))
  exact h

/-! ### Philox and ThreeFry -/

section
variable {N kN : Nat}

theorem cm64_uniform (hN : N = 2 ∨ N = 4) (blk : List U64 → List U64 → List U64) (b : Buf (CtrGen 64)) (h : CmReach N kN blk b.core)
    (hb : PermN N (fun c => blk c b.core.key)) :
    (∀ m < 2 ^ 53, Nat.card {k // k < N * 2 ^ (64 * N) ∧ nthO (dbl64O (cmNext N blk)) k b.core = some m} = N * 2 ^ (64 * (N - 1)) * 2 ^ 11) ∧
    (b.has = false → (∀ v : U32, Nat.card {k // k < 2 * N * 2 ^ (64 * N) ∧ nthO (next32O (cmNext N blk)) k b = some v} = 2 * N * 2 ^ (32 * (2 * N - 1))) ∧
      ∀ K d, TailPeriod (fun k => nthO (next32O (cmNext N blk)) k b) K d ↔ 2 * N * 2 ^ (64 * N) ∣ d) := by
  have V : Variant N 64 := ⟨hN, .inr rfl⟩
  obtain ⟨⟨p, hp⟩, -⟩ := cmReach_at V blk h
  exact ctr64_uniform V.N_pos card_words (by rcases hN with rfl | rfl <;> decide) (cmWord_period blk b.core.key) (cmWord_blocks V blk hb) (cm_nth V blk _ _ _ hp)

theorem cm32_uniform (hN : N = 1 ∨ N = 2) (blk : List U32 → List U32 → List U32) (s : CtrGen 32) (h : CmReach (2 * N) kN blk s)
    (hb : PermN (2 * N) (fun c => blk c s.key)) (hs : s.pos % 2 = 0) (o : Bool) :
    (∀ m < 2 ^ 53, Nat.card {k // k < N * 2 ^ (64 * N) ∧ nthO (dblCallsO (cmNext (2 * N) blk)) k s = some m} = N * 2 ^ (64 * (N - 1)) * 2 ^ 11) ∧
    (∀ x : U64, Nat.card {k // k < N * 2 ^ (64 * N) ∧ nthO (twoCallsO (cmNext (2 * N) blk) o) k s = some x} = N * 2 ^ (64 * (N - 1))) ∧
      ∀ K d, TailPeriod (fun k => nthO (twoCallsO (cmNext (2 * N) blk) o) k s) K d ↔ N * 2 ^ (64 * N) ∣ d := by
  have V : Variant (2 * N) 32 := ⟨by omega, .inl rfl⟩
  obtain ⟨⟨p, hp⟩, -⟩ := cmReach_at V blk h
  have hev : p % 2 = 0 := by
    obtain ⟨-, -, pos, h1, -, h2⟩ := hp
    have h3 : cmPeriod (2 * N) 32 % 2 = 0 := by rcases hN with rfl | rfl <;> decide
    have h4 : p % 2 = (2 * N * wval s.ctr + min pos (2 * N)) % 2 := h2.of_dvd (Nat.dvd_of_mod_eq_zero h3)
    rw [h4, Nat.mul_assoc]
    omega
  have e : 2 ^ (32 * (2 * N)) = 2 ^ (64 * N) := by rw [← Nat.mul_assoc]
  have h := ctr32_uniform (N := N) (by omega) card_words (by rcases hN with rfl | rfl <;> decide) (cmWord_period blk s.key) (cmWord_blocks V blk hb) hev
    (cm_nth V blk _ _ _ hp) o
  rw [e] at h
  exact h

end

/-- C94: Philox with 64-bit words, from every reachable state: every double `N 2^(64 (N - 1) + 11)` times in a period, every 32-bit value equally
often, and the exact period of the 32-bit draws. -/
theorem C94_philox64 {N : Nat} (hN : N = 2 ∨ N = 4) (b : Buf (CtrGen 64)) (h : PhiloxReach N b.core) :
    (∀ m < 2 ^ 53, Nat.card {k // k < N * 2 ^ (64 * N) ∧ nthO (dbl64O (philoxNext N)) k b.core = some m} = N * 2 ^ (64 * (N - 1)) * 2 ^ 11) ∧
    (b.has = false → (∀ v : U32, Nat.card {k // k < 2 * N * 2 ^ (64 * N) ∧ nthO (next32O (philoxNext N)) k b = some v} = 2 * N * 2 ^ (32 * (2 * N - 1))) ∧
      ∀ K d, TailPeriod (fun k => nthO (next32O (philoxNext N)) k b) K d ↔ 2 * N * 2 ^ (64 * N) ∣ d) :=
  have V : Variant N 64 := ⟨hN, .inr rfl⟩
  cm64_uniform hN philox b h (philox_perm V _ (cmReach_at V philox h).2.1)

/-- C94: the same for ThreeFry. -/
theorem C94_threefry64 {N : Nat} (hN : N = 2 ∨ N = 4) (b : Buf (CtrGen 64)) (h : ThreefryReach N b.core) :
    (∀ m < 2 ^ 53, Nat.card {k // k < N * 2 ^ (64 * N) ∧ nthO (dbl64O (threefryNext N)) k b.core = some m} = N * 2 ^ (64 * (N - 1)) * 2 ^ 11) ∧
    (b.has = false → (∀ v : U32, Nat.card {k // k < 2 * N * 2 ^ (64 * N) ∧ nthO (next32O (threefryNext N)) k b = some v} = 2 * N * 2 ^ (32 * (2 * N - 1))) ∧
      ∀ K d, TailPeriod (fun k => nthO (next32O (threefryNext N)) k b) K d ↔ 2 * N * 2 ^ (64 * N) ∣ d) :=
  cm64_uniform hN threefry b h (threefry_perm ⟨hN, .inr rfl⟩ _)

/-- C94: Philox with `2 N` 32-bit words, from every reachable state at an even position of its buffer: doubles and 64-bit draws, in either order
of evaluation, with the exact period of the 64-bit draws. -/
theorem C94_philox32 {N : Nat} (hN : N = 1 ∨ N = 2) (s : CtrGen 32) (h : PhiloxReach (2 * N) s) (hs : s.pos % 2 = 0) (o : Bool) :
    (∀ m < 2 ^ 53, Nat.card {k // k < N * 2 ^ (64 * N) ∧ nthO (dblCallsO (philoxNext (2 * N))) k s = some m} = N * 2 ^ (64 * (N - 1)) * 2 ^ 11) ∧
    (∀ x : U64, Nat.card {k // k < N * 2 ^ (64 * N) ∧ nthO (twoCallsO (philoxNext (2 * N)) o) k s = some x} = N * 2 ^ (64 * (N - 1))) ∧
      ∀ K d, TailPeriod (fun k => nthO (twoCallsO (philoxNext (2 * N)) o) k s) K d ↔ N * 2 ^ (64 * N) ∣ d :=
  have V : Variant (2 * N) 32 := ⟨by omega, .inl rfl⟩
  cm32_uniform hN philox s h (philox_perm V _ (cmReach_at V philox h).2.1) hs o

/-- C94: the same for ThreeFry. -/
theorem C94_threefry32 {N : Nat} (hN : N = 1 ∨ N = 2) (s : CtrGen 32) (h : ThreefryReach (2 * N) s) (hs : s.pos % 2 = 0) (o : Bool) :
    (∀ m < 2 ^ 53, Nat.card {k // k < N * 2 ^ (64 * N) ∧ nthO (dblCallsO (threefryNext (2 * N))) k s = some m} = N * 2 ^ (64 * (N - 1)) * 2 ^ 11) ∧
    (∀ x : U64, Nat.card {k // k < N * 2 ^ (64 * N) ∧ nthO (twoCallsO (threefryNext (2 * N)) o) k s = some x} = N * 2 ^ (64 * (N - 1))) ∧
      ∀ K d, TailPeriod (fun k => nthO (twoCallsO (threefryNext (2 * N)) o) k s) K d ↔ N * 2 ^ (64 * N) ∣ d :=
  cm32_uniform hN threefry s h (threefry_perm ⟨by omega, .inl rfl⟩ _) hs o

/-- Seeded generators are such states. -/
example (old : CtrGen 32) (key counter : Nat) : PhiloxReach 4 (cmSeed 4 2 old key counter) ∧ (cmSeed 4 2 old key counter).pos % 2 = 0 ∧
    ThreefryReach 2 (cmSeed 2 2 old key counter) ∧ (cmSeed 2 2 old key counter).pos % 2 = 0 :=
  ⟨.seed old key counter, rfl, .seed old key counter, rfl⟩

end Verif
