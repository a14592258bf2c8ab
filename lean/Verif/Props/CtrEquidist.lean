import Verif.Proof.BlockCount
import Verif.Props.BlockPerm
import Verif.Props.CtrMode
import Verif.Props.ChaCha
import Verif.Model.Api

/-! C81, C82: exact output periods and equidistribution of the counter-driven block generators. -/

namespace Verif
open Orbit

/-! ### SPECK128 and AESCounter: blocks of two 64-bit words -/

/-- The words of the stream of a block function, by position. -/
def ctrWord (enc : Ctr → Ctr) (k : Nat) : U64 := wordAt enc (BitVec.ofNat 129 k)

theorem ctrWord_period (enc : Ctr → Ctr) (k : Nat) : ctrWord enc (k + 2 * 2 ^ 128) = ctrWord enc k := by
  have : BitVec.ofNat 129 (k + 2 * 2 ^ 128) = BitVec.ofNat 129 k := by
    apply BitVec.eq_of_toNat_eq
    rw [BitVec.toNat_ofNat, BitVec.toNat_ofNat, show 2 * 2 ^ 128 = 2 ^ 129 by norm_num, Nat.add_mod_right]
  rw [ctrWord, this, ctrWord]

theorem ctrWord_block (enc : Ctr → Ctr) (i n : Nat) (hn : n < 2) :
    ctrWord enc (2 * i + n) = half (enc (Ctr.ofVal (BitVec.ofNat 128 i))) n := by
  rw [ctrWord, BitVec.ofNat_add, ← dbl_ofNat, wordAt, posCtr_dbl, half_dbl, show n / 2 = 0 by omega, BitVec.add_zero]

theorem ctrWord_inj {enc : Ctr → Ctr} (henc : Function.Injective enc) (i j : Nat)
    (h : ∀ n < 2, ctrWord enc (2 * i + n) = ctrWord enc (2 * j + n)) : i ≡ j [MOD 2 ^ 128] := by
  have h0 := h 0 (by decide)
  have h1 := h 1 (by decide)
  rw [ctrWord_block _ _ _ (by decide), ctrWord_block _ _ _ (by decide)] at h0 h1
  have e : enc (Ctr.ofVal (BitVec.ofNat 128 i)) = enc (Ctr.ofVal (BitVec.ofNat 128 j)) := by
    generalize enc (Ctr.ofVal (BitVec.ofNat 128 i)) = a at h0 h1 ⊢
    generalize enc (Ctr.ofVal (BitVec.ofNat 128 j)) = b at h0 h1 ⊢
    cases a; cases b
    rw [Ctr.mk.injEq]
    exact ⟨h0, h1⟩
  have h2 := congrArg Ctr.val (henc e)
  rw [Ctr.val_ofVal, Ctr.val_ofVal] at h2
  have h3 := congrArg BitVec.toNat h2
  rwa [BitVec.toNat_ofNat, BitVec.toNat_ofNat] at h3

theorem card_u64_sq : Nat.card U64 ^ 2 = 2 ^ 128 := by rw [card_bitVec, ← pow_mul]

section
variable {σ : Type} {nx : σ → Option (U64 × σ)} {s : σ} {enc : Ctr → Ctr} (henc : Function.Injective enc) {p : BitVec 129}
  (hs : ∀ n, nthO nx n s = some (wordAt enc (p + BitVec.ofNat 129 n)))
include henc hs

omit henc in
theorem nthO_ctrWord (n : Nat) : nthO nx n s = some (ctrWord enc (p.toNat + n)) := by
  rw [hs, ctrWord, BitVec.ofNat_add, BitVec.ofNat_toNat, BitVec.setWidth_eq]

theorem ctr_counts (x : U64) : Nat.card {k // k < 2 ^ 129 ∧ nthO nx k s = some x} = 2 ^ 65 := by
  have h := Blocks.count (by decide) card_u64_sq (ctrWord_period enc) (ctrWord_inj henc) p.toNat x
  rw [card_bitVec] at h
  simp only [nthO_ctrWord hs, Option.some.injEq]
  exact h.trans (by norm_num)

theorem ctr_period (K d : Nat) : TailPeriod (fun k => nthO nx k s) K d ↔ 2 ^ 129 ∣ d := by
  have h := Blocks.period (N := 2) (M := 2 ^ 128) (by decide) (by decide) (by decide) (ctrWord_period enc) (ctrWord_inj henc)
    (p.toNat + K) d
  rw [show 2 * 2 ^ 128 = 2 ^ 129 by norm_num] at h
  rw [← h]
  simp only [TailPeriod, nthO_ctrWord hs, Option.some.injEq]
  constructor
  · intro h1 k hk
    have := h1 (k - p.toNat) (by omega)
    rwa [show p.toNat + (k - p.toNat + d) = k + d by omega, show p.toNat + (k - p.toNat) = k by omega] at this
  · intro h1 k hk
    rw [← Nat.add_assoc]
    exact h1 _ (by omega)

end

/-- C81: from every reachable SPECK128 state (any key, number of rounds, counter and buffer position) every 64-bit value is returned
exactly `2^65` times in any `2^129` consecutive draws. -/
theorem C81_speck_counts (s : Speck) (h : s.Reach) (x : U64) : Nat.card {k // k < 2 ^ 129 ∧ nthO speckNext k s = some x} = 2 ^ 65 := by
  obtain ⟨rk, r, p, hp⟩ := h.at
  exact ctr_counts (speckEnc_injective rk r.toNat) (nthO_of_invariant speckNext (SpeckAt rk r) _ (speckNext_at rk r) s p hp) x

/-- C81: the draws of every reachable SPECK128 state have the exact period `2^129`, from any draw on. -/
theorem C81_speck_period (s : Speck) (h : s.Reach) (K d : Nat) : TailPeriod (fun k => nthO speckNext k s) K d ↔ 2 ^ 129 ∣ d := by
  obtain ⟨rk, r, p, hp⟩ := h.at
  exact ctr_period (speckEnc_injective rk r.toNat) (nthO_of_invariant speckNext (SpeckAt rk r) _ (speckNext_at rk r) s p hp) K d

/-- C81: the period `2^128` given in parallel.rst:160 for 64-bit draws is not a period of the draws (speck128.pyx:70-71 gives
`2^129`). -/
theorem C81_speck_documented (s : Speck) (h : s.Reach) (K : Nat) : ¬ TailPeriod (fun k => nthO speckNext k s) K (2 ^ 128) := by
  rw [C81_speck_period s h]
  decide

/-- C81: after seeding, every pair of 64-bit words is block `i` (draws `2i`, `2i + 1`) for exactly one `i < 2^128`. -/
theorem C81_speck_pairs (old : Speck) (k0 k1 k2 k3 : U64) (c : Ctr) (x y : U64) :
    ∃! i, i < 2 ^ 128 ∧ nthO speckNext (2 * i) (speckSeed old k0 k1 k2 k3 c) = some x ∧
      nthO speckNext (2 * i + 1) (speckSeed old k0 k1 k2 k3 c) = some y := by
  have hs := nthO_of_invariant speckNext _ _ (speckNext_at _ _) _ _ (speckSeed_at old k0 k1 k2 k3 c)
  have hi := speckEnc_injective (fun i => (speckExpandKey k0 k1 k2 k3).getD i 0) old.rounds.toNat
  have h := Blocks.unique card_u64_sq (ctrWord_inj hi) c.val.toNat ![x, y]
  have e : (dbl c.val).toNat = 2 * c.val.toNat := by
    have := c.val.isLt
    rw [dbl, BitVec.toNat_ofNat]; omega
  simpa only [nthO_ctrWord hs, e, Option.some.injEq, Fin.forall_fin_two, Matrix.cons_val_zero, Matrix.cons_val_one, Fin.val_zero,
    Fin.val_one, Nat.add_zero] using h

/-- C81: the same counts for AESCounter. -/
theorem C81_aes_counts (s : Aes) (h : s.Reach) (x : U64) : Nat.card {k // k < 2 ^ 129 ∧ nthO aesNext k s = some x} = 2 ^ 65 := by
  obtain ⟨rk, p, hp⟩ := h.at
  exact ctr_counts (aesEnc_injective rk) (nthO_of_invariant aesNext (AesAt rk) _ (aesNext_at rk) s p hp) x

/-- C81: the draws of every reachable AESCounter state have the exact period `2^129`, from any draw on. -/
theorem C81_aes_period (s : Aes) (h : s.Reach) (K d : Nat) : TailPeriod (fun k => nthO aesNext k s) K d ↔ 2 ^ 129 ∣ d := by
  obtain ⟨rk, p, hp⟩ := h.at
  exact ctr_period (aesEnc_injective rk) (nthO_of_invariant aesNext (AesAt rk) _ (aesNext_at rk) s p hp) K d

/-- C81: the documented period `2^128` (aes.pyx:62-63, parallel.rst:136) is not a period of the 64-bit draws. -/
theorem C81_aes_documented (s : Aes) (h : s.Reach) (K : Nat) : ¬ TailPeriod (fun k => nthO aesNext k s) K (2 ^ 128) := by
  rw [C81_aes_period s h]
  decide

/-- C81: after seeding, every pair of 64-bit words is block `i` for exactly one `i < 2^128`. -/
theorem C81_aes_pairs (old : Aes) (k0 k1 : U64) (c : Nat) (x y : U64) :
    ∃! i, i < 2 ^ 128 ∧ nthO aesNext (2 * i) (aesSeed old k0 k1 c) = some x ∧
      nthO aesNext (2 * i + 1) (aesSeed old k0 k1 c) = some y := by
  have hs := nthO_of_invariant aesNext _ _ (aesNext_at _) _ _ (aesSeed_at old k0 k1 c)
  have hi := aesEnc_injective (aesExpandKey k0 k1)
  have h := Blocks.unique card_u64_sq (ctrWord_inj hi) (BitVec.ofNat 128 c).toNat ![x, y]
  have e : (dbl (BitVec.ofNat 128 c)).toNat = 2 * (BitVec.ofNat 128 c).toNat := by
    have := (BitVec.ofNat 128 c).isLt
    rw [dbl, BitVec.toNat_ofNat]; omega
  simpa only [nthO_ctrWord hs, e, Option.some.injEq, Fin.forall_fin_two, Matrix.cons_val_zero, Matrix.cons_val_one, Fin.val_zero,
    Fin.val_one, Nat.add_zero] using h

/-! ### Philox and ThreeFry: blocks of `N` words of `w` bits -/

section
variable {w N kN : Nat} (V : Variant N w) (blk : List (BitVec w) → List (BitVec w) → List (BitVec w))
include V

omit V in
theorem cmWord_period (key : List (BitVec w)) (k : Nat) : cmWord N blk key (k + N * 2 ^ (w * N)) = cmWord N blk key k :=
  cmWord_congr blk key (show (k + cmPeriod N w) % cmPeriod N w = _ from Nat.add_mod_right _ _)

omit V in
theorem card_words : Nat.card (BitVec w) ^ N = 2 ^ (w * N) := by rw [card_bitVec, ← pow_mul]

theorem cm_counts {s : CtrGen w} (h : CmReach N kN blk s) (hb : PermN N (fun c => blk c s.key)) (x : BitVec w) :
    Nat.card {k // k < N * 2 ^ (w * N) ∧ nthO (cmNext N blk) k s = some x} = N * 2 ^ (w * (N - 1)) := by
  obtain ⟨⟨p, hp⟩, -⟩ := cmReach_at V blk h
  have h1 := Blocks.count V.N_pos card_words (cmWord_period blk s.key) (cmWord_blocks V blk hb) p x
  rw [card_bitVec, ← pow_mul] at h1
  simpa only [cm_nth V blk _ _ _ hp, Option.some.injEq] using h1

theorem cm_period {s : CtrGen w} (h : CmReach N kN blk s) (hb : PermN N (fun c => blk c s.key)) (K d : Nat) :
    TailPeriod (fun k => nthO (cmNext N blk) k s) K d ↔ N * 2 ^ (w * N) ∣ d := by
  obtain ⟨⟨p, hp⟩, -⟩ := cmReach_at V blk h
  have hN : N ∣ 2 ^ (w * N) :=
    (Dvd.intro _ V.pow_eq.symm).trans (pow_dvd_pow 2 (Nat.le_mul_of_pos_right w V.N_pos))
  rw [← Blocks.period V.N_pos (Nat.two_pow_pos _) hN (cmWord_period blk s.key) (cmWord_blocks V blk hb) (p + K) d]
  simp only [TailPeriod, cm_nth V blk _ _ _ hp, Option.some.injEq]
  constructor
  · intro h1 k hk
    have := h1 (k - p) (by omega)
    rwa [show p + (k - p + d) = k + d by omega, show p + (k - p) = k by omega] at this
  · intro h1 k hk
    rw [← Nat.add_assoc]
    exact h1 _ (by omega)

theorem cm_blocks_unique (old : CtrGen w) (key counter : Nat) (hb : PermN N (fun c => blk c (toWords w kN key))) (f : Fin N → BitVec w) :
    ∃! i, i < 2 ^ (w * N) ∧ ∀ n : Fin N, nthO (cmNext N blk) (N * i + n.val) (cmSeed N kN old key counter) = some (f n) := by
  have h := Blocks.unique card_words (cmWord_blocks V blk hb) (counter + 1) f
  simpa only [cm_nth V blk _ _ _ (cmSeed_at V blk old key counter), Option.some.injEq] using h

end

/-- C81: from every reachable Philox state every `w`-bit value is returned exactly `N * 2^(w (N - 1))` times in any
`N * 2^(w N)` consecutive draws, in all four variants. -/
theorem C81_philox_counts {N w : Nat} (V : Variant N w) {s : CtrGen w} (h : PhiloxReach N s) (x : BitVec w) :
    Nat.card {k // k < N * 2 ^ (w * N) ∧ nthO (philoxNext N) k s = some x} = N * 2 ^ (w * (N - 1)) :=
  cm_counts V philox h (philox_perm V _ (cmReach_at V philox h).2.1) x

/-- C81: the draws of every reachable Philox state have the exact period `N * 2^(w N)` (philox.pyx:110), from any draw on. -/
theorem C81_philox_period {N w : Nat} (V : Variant N w) {s : CtrGen w} (h : PhiloxReach N s) (K d : Nat) :
    TailPeriod (fun k => nthO (philoxNext N) k s) K d ↔ N * 2 ^ (w * N) ∣ d :=
  cm_period V philox h (philox_perm V _ (cmReach_at V philox h).2.1) K d

/-- C81: after seeding Philox, every sequence of `N` words is a block for exactly one block number. -/
theorem C81_philox_blocks {N w : Nat} (V : Variant N w) (old : CtrGen w) (key counter : Nat) (f : Fin N → BitVec w) :
    ∃! i, i < 2 ^ (w * N) ∧ ∀ n : Fin N, nthO (philoxNext N) (N * i + n.val) (cmSeed N (N / 2) old key counter) = some (f n) :=
  cm_blocks_unique V philox old key counter (philox_perm V _ (toWords_length _ _ _)) f

/-- C81: the same counts for ThreeFry. -/
theorem C81_threefry_counts {N w : Nat} (V : Variant N w) {s : CtrGen w} (h : ThreefryReach N s) (x : BitVec w) :
    Nat.card {k // k < N * 2 ^ (w * N) ∧ nthO (threefryNext N) k s = some x} = N * 2 ^ (w * (N - 1)) :=
  cm_counts V threefry h (threefry_perm V _) x

/-- C81: the exact period for ThreeFry (threefry.pyx:100). -/
theorem C81_threefry_period {N w : Nat} (V : Variant N w) {s : CtrGen w} (h : ThreefryReach N s) (K d : Nat) :
    TailPeriod (fun k => nthO (threefryNext N) k s) K d ↔ N * 2 ^ (w * N) ∣ d :=
  cm_period V threefry h (threefry_perm V _) K d

/-- C81: the same for the blocks of ThreeFry. -/
theorem C81_threefry_blocks {N w : Nat} (V : Variant N w) (old : CtrGen w) (key counter : Nat) (f : Fin N → BitVec w) :
    ∃! i, i < 2 ^ (w * N) ∧ ∀ n : Fin N, nthO (threefryNext N) (N * i + n.val) (cmSeed N N old key counter) = some (f n) :=
  cm_blocks_unique V threefry old key counter (threefry_perm V _) f

/-- C81: with the default four words of 64 bits, the documented period `2^256` (parallel.rst:155, 161) is not a period of the draws. -/
theorem C81_philox_documented {s : CtrGen 64} (h : PhiloxReach 4 s) (K : Nat) : ¬ TailPeriod (fun k => nthO (philoxNext 4) k s) K (2 ^ 256) := by
  rw [C81_philox_period ⟨.inr rfl, .inr rfl⟩ h]
  decide

/-- C81: nor is it one of ThreeFry. -/
theorem C81_threefry_documented {s : CtrGen 64} (h : ThreefryReach 4 s) (K : Nat) :
    ¬ TailPeriod (fun k => nthO (threefryNext 4) k s) K (2 ^ 256) := by
  rw [C81_threefry_period ⟨.inr rfl, .inr rfl⟩ h]
  decide

/-! ### ChaCha: the block function is not a permutation -/

/-- C82: the 32-bit draws of every seeded ChaCha repeat after `2^128`, and every period (from any draw on) shorter than `2^128` is
impossible as soon as one draw differs from the one `2^127` later. -/
theorem C82_chacha_period_partial (old : ChaCha) (s0 s1 t0 t1 c0 c1 : U64) :
    TailPeriod (fun k => nthDraw ccNext k (ccSeed old s0 s1 t0 t1 c0 c1)) 0 (2 ^ 128) ∧
    ∀ m, nthDraw ccNext (m + 2 ^ 127) (ccSeed old s0 s1 t0 t1 c0 c1) ≠ nthDraw ccNext m (ccSeed old s0 s1 t0 t1 c0 c1) →
      ∀ K d, TailPeriod (fun k => nthDraw ccNext k (ccSeed old s0 s1 t0 t1 c0 c1)) K d ↔ 2 ^ 128 ∣ d := by
  have hat := ccSeed_at old s0 s1 t0 t1 c0 c1
  have hper : ∀ k, nthDraw ccNext (k + 2 ^ 128) (ccSeed old s0 s1 t0 t1 c0 c1) = nthDraw ccNext k (ccSeed old s0 s1 t0 t1 c0 c1) := by
    intro k
    rw [cc_nth _ _ _ _ _ hat, cc_nth _ _ _ _ _ hat]
    exact ccWord_mod _ _ _ (by rw [← Nat.add_assoc, Nat.add_mod_right])
  refine ⟨fun k _ => hper k, fun m hm K d => ⟨fun h => ?_, ?_⟩⟩
  · have hg := gcd_period (u := fun k => nthDraw ccNext k (ccSeed old s0 s1 t0 t1 c0 c1)) (by decide) hper h
    obtain ⟨e, he, hge⟩ := (Nat.dvd_prime_pow Nat.prime_two).1 (Nat.gcd_dvd_right d (2 ^ 128))
    rcases Nat.lt_or_ge e 128 with hlt | hlt
    · have hmul : ∀ c k, nthDraw ccNext (k + 2 ^ e * c) (ccSeed old s0 s1 t0 t1 c0 c1) =
          nthDraw ccNext k (ccSeed old s0 s1 t0 t1 c0 c1) := by
        intro c
        induction c with
        | zero => intro k; rfl
        | succ c ih =>
          intro k
          rw [Nat.mul_succ, ← Nat.add_assoc, ← hge]
          refine (hg _).trans ?_
          rw [hge, ih]
      obtain ⟨c, hc⟩ := pow_dvd_pow 2 (show e ≤ 127 by omega)
      exact absurd (by rw [hc]; exact hmul c m) hm
    · have : e = 128 := by omega
      rw [this] at hge
      exact Nat.gcd_eq_right_iff_dvd.1 hge
  · rintro ⟨c, rfl⟩ k -
    induction c with
    | zero => rfl
    | succ c ih => rw [Nat.mul_succ, ← Nat.add_assoc]; exact (hper _).trans ih

/-- A 64-bit draw is made of two 32-bit draws, in one order or the other. -/
theorem nthDraw_twoCalls {σ : Type} (nx : σ → U32 × σ) (o : Bool) (n : Nat) (s : σ) :
    nthDraw (twoCalls nx o) n s = (if o then (nthDraw nx (2 * n) s).setWidth 64 <<< 32 ||| (nthDraw nx (2 * n + 1) s).setWidth 64
      else (nthDraw nx (2 * n + 1) s).setWidth 64 <<< 32 ||| (nthDraw nx (2 * n) s).setWidth 64) := by
  have h : ∀ n s, (stepOf (twoCalls nx o))^[n] s = (stepOf nx)^[2 * n] s := by
    intro n
    induction n with
    | zero => intro s; rfl
    | succ n ih =>
      intro s
      rw [Function.iterate_succ_apply, ih, show 2 * (n + 1) = 2 * n + 2 by ring, Function.iterate_add_apply]
      cases o <;> rfl
  rw [nthDraw, h, nthDraw, nthDraw, Function.iterate_succ_apply']
  cases o <;> rfl

/-- C82: the 64-bit draws of ChaCha (`chacha_next64`, chacha.h:203-206, with either order of its two calls) repeat after `2^127`
already: the documented period of this "64-bit PRNG" (chacha.pyx:66-69, parallel.rst:138) is twice that. -/
theorem C82_chacha_next64 (o : Bool) (old : ChaCha) (s0 s1 t0 t1 c0 c1 : U64) :
    TailPeriod (fun k => nthDraw (twoCalls ccNext o) k (ccSeed old s0 s1 t0 t1 c0 c1)) 0 (2 ^ 127) := by
  intro k _
  have h := fun j => (C82_chacha_period_partial old s0 s1 t0 t1 c0 c1).1 j (Nat.zero_le _)
  simp only at h ⊢
  rw [nthDraw_twoCalls, nthDraw_twoCalls, show 2 * (k + 2 ^ 127) = 2 * k + 2 ^ 128 by ring,
    show 2 * k + 2 ^ 128 + 1 = 2 * k + 1 + 2 ^ 128 by ring, h, h]

/-- The hypothesis of `C82_chacha_period_partial` is met, and the period is exact, for the default 20 rounds and the zero key. -/
example (old : ChaCha) (hr : old.rounds = 20) (K d : Nat) :
    TailPeriod (fun k => nthDraw ccNext k (ccSeed old 0 0 0 0 0 0)) K d ↔ 2 ^ 128 ∣ d := by
  refine (C82_chacha_period_partial old 0 0 0 0 0 0).2 0 ?_ K d
  rw [cc_nth _ _ _ _ _ (ccSeed_at old 0 0 0 0 0 0), cc_nth _ _ _ _ _ (ccSeed_at old 0 0 0 0 0 0), hr]
  decide +kernel

/-! States the theorems apply to. -/

example (old : Speck) : (speckSeed old 1 2 3 4 ⟨5, 6⟩).Reach := .seed old 1 2 3 4 ⟨5, 6⟩
example (old : Aes) : (aesSeed old 1 2 (2 ^ 128 - 1)).Reach := .seed old 1 2 _
example (old : CtrGen 32) : ThreefryReach 2 (cmSeed 2 2 old 7 (2 ^ 64 - 1)) := .seed old _ _
example (old : CtrGen 32) : Nat.card {k // k < 2 * 2 ^ 64 ∧ nthO (philoxNext 2) k (cmSeed 2 1 old 7 9) = some 0#32} = 2 * 2 ^ 32 :=
  C81_philox_counts (N := 2) (w := 32) ⟨.inl rfl, .inl rfl⟩ (.seed old 7 9) 0#32

end Verif
