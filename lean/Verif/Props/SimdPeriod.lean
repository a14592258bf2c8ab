import Verif.Proof.DsfmtPeriod
import Verif.Props.SfmtSeed

/-! C77: the periods of SFMT and DSFMT. -/

namespace Verif
open Verif.Linear Verif.GF2

/-- The two halves of a word. -/
theorem halves_eq {a b : U128} (h0 : a.extractLsb' (64 * 0) 64 = b.extractLsb' (64 * 0) 64) (h1 : a.extractLsb' (64 * 1) 64 = b.extractLsb' (64 * 1) 64) : a = b := by
  apply BitVec.eq_of_getLsbD_eq
  intro i hi
  by_cases h : i < 64
  · have := congrArg (fun x => x.getLsbD i) h0
    simpa [h] using this
  · have := congrArg (fun x => x.getLsbD (i - 64)) h1
    have e : 64 + (i - 64) = i := by omega
    have e2 : i - 64 < 64 := by omega
    simpa [e, e2] using this

/-- The outputs from place `K` on have period `n`. -/
def PeriodFrom {σ α : Type} (next : σ → Option (α × σ)) (s : σ) (K n : Nat) : Prop := ∀ k, K ≤ k → nthO next (k + n) s = nthO next k s

theorem PeriodFrom.two {σ α : Type} {next : σ → Option (α × σ)} {s : σ} {K n : Nat} (h : PeriodFrom next s K n) : PeriodFrom next s K (2 * n) := by
  intro k hk
  rw [Nat.two_mul, ← Nat.add_assoc, h _ (by omega), h k hk]

theorem maskPar_sfmtWin (mask : U128) (x : Nat → U128) : maskPar mask (sfmtWin x 0).val = ones (x 0 &&& mask) 128 := by
  rw [maskPar]
  congr 2
  apply BitVec.eq_of_toNat_eq
  rw [BitVec.toNat_ofNat]
  have := pk_word (w := 128) (by decide) 156 (fun i => x (0 + i)) 0 (by decide)
  rw [Nat.mul_zero, Nat.shiftRight_zero] at this
  exact this

/-- C77 for SFMT: in a state with the certified parity every period of the 64-bit outputs, even of a tail of them, is a
multiple of `2^19937 - 1`. -/
theorem C77_sfmt (s : Sfmt) (h0 : 0 ≤ s.loc) (h1 : s.loc ≤ 312)
    (hc : ones ((s.st 0).pack &&& 0x13c9e684000000000000000000000001) 128 = true) (K n : Nat) (h : PeriodFrom sfmtNext64 s K n) : 2 ^ 19937 - 1 ∣ n := by
  obtain ⟨x, hx, hk⟩ := sfmt_solution (fun i => (s.st i).pack)
  have hh := h.two
  have half : ∀ j, K ≤ j → ∀ b < 2, (x (156 + j + n)).extractLsb' (64 * b) 64 = (x (156 + j)).extractLsb' (64 * b) 64 := by
    intro j hj b hb
    have := hh (312 - s.loc.toNat + 2 * j + b) (by omega)
    rw [C65_sfmt s h0 h1 x hx hk, C65_sfmt s h0 h1 x hx hk] at this
    have hl : s.loc.toNat ≤ 312 := by omega
    generalize s.loc.toNat = l at hl this
    rw [if_neg (by omega), if_neg (by omega)] at this
    have := Option.some.inj this
    rw [show (l + (312 - l + 2 * j + b + 2 * n) - 312) / 2 = j + n by omega, show (l + (312 - l + 2 * j + b + 2 * n)) % 2 = b by omega,
      show (l + (312 - l + 2 * j + b) - 312) / 2 = j by omega, show (l + (312 - l + 2 * j + b)) % 2 = b by omega, ← Nat.add_assoc] at this
    exact this
  have word : ∀ j, K ≤ j → x (156 + j + n) = x (156 + j) := fun j hj => halves_eq (half j hj 0 (by omega)) (half j hj 1 (by omega))
  have hw : sfmtT^[n] (sfmtWin x (156 + K)) = sfmtWin x (156 + K) := by
    have : sfmtWin x (n + (156 + K)) = sfmtWin x (156 + K) := by
      apply PV.ext'
      show pk 156 (fun i => x (n + (156 + K) + i)) = pk 156 (fun i => x (156 + K + i))
      apply pk_congr
      intro i hi
      have := word (K + i) (by omega)
      rw [show n + (156 + K) + i = 156 + (K + i) + n by omega, this, Nat.add_assoc]
    rw [sfmtWin_iter x hx, Function.iterate_add_apply, ← sfmtWin_iter x hx] at this
    exact this
  apply sfmt_dvd ?_ hw
  rw [sfmtWin_iter x hx, ev_iter_comm]
  intro hz
  have hz : (sfmtT ^ (156 + K)) (ev sfmtT sfmtPsi (sfmtWin x 0)) = (sfmtT ^ (156 + K)) 0 := by rw [map_zero, pow_apply]; exact hz
  refine sfmt_lam (v := sfmtWin x 0) ?_ (sfmtT_pow_inj _ hz)
  rw [maskPar_sfmtWin, hk 0 (by omega)]
  exact hc

/-- C77 for SFMT: from any state at the end of its buffer the outputs repeat after `2 (2^19937 - 1) 268394497` of them. -/
theorem C77_sfmt_repeats (s : Sfmt) (h : s.loc = 312) : PeriodFrom sfmtNext64 s 0 (2 * ((2 ^ 19937 - 1) * 268394497)) := by
  intro k _
  obtain ⟨x, hx, hk⟩ := sfmt_solution (fun i => (s.st i).pack)
  obtain ⟨P, hP⟩ : ∃ P, P = (2 ^ 19937 - 1) * 268394497 := ⟨_, rfl⟩
  have hper := sfmt_period
  rw [← hP] at hper ⊢
  have hword : ∀ j, x (j + P) = x j := by
    intro j
    have hw : sfmtWin x (j + P) = sfmtWin x j := by
      rw [sfmtWin_iter x hx, Nat.add_comm, Function.iterate_add_apply, hper, ← sfmtWin_iter x hx]
    have e := pk_word (w := 128) (by decide) 156 (fun i => x (j + P + i)) 0 (by decide)
    have e2 := pk_word (w := 128) (by decide) 156 (fun i => x (j + i)) 0 (by decide)
    have hw : pk 156 (fun i => x (j + P + i)) = pk 156 (fun i => x (j + i)) := congrArg PV.val hw
    rw [hw, e2] at e
    exact BitVec.eq_of_toNat_eq e.symm
  rw [C65_sfmt s (by omega) (by omega) x hx hk, C65_sfmt s (by omega) (by omega) x hx hk, h]
  have hl : (312 : Int).toNat = 312 := rfl
  rw [hl, if_neg (show ¬ 312 + (k + 2 * P) < 312 by omega), if_neg (show ¬ 312 + k < 312 by omega)]
  have e1 : 156 + (312 + (k + 2 * P) - 312) / 2 = 156 + (312 + k - 312) / 2 + P := by omega
  have e2 : (312 + (k + 2 * P)) % 2 = (312 + k) % 2 := by omega
  rw [e1, e2, hword]

/-- C77 for SFMT, every seed. -/
theorem C77_sfmt_seeded (old : Sfmt) (key : List U32) : PeriodFrom sfmtNext64 (sfmtSeed old key) 0 (2 * ((2 ^ 19937 - 1) * 268394497)) ∧
    ∀ K n, PeriodFrom sfmtNext64 (sfmtSeed old key) K n → 2 ^ 19937 - 1 ∣ n :=
  ⟨C77_sfmt_repeats _ rfl, C77_sfmt _ (show (0 : Int) ≤ 312 by omega) (show (312 : Int) ≤ 312 by omega) (C37_sfmt old key).1⟩

/-- C77 for DSFMT: in a state of doubles in `[1, 2)` with the certified parity every period of the outputs, even of a tail of
them, is a multiple of `2^19937 - 1`. -/
theorem C77_dsfmt (s : Dsfmt) (h0 : 0 ≤ s.loc) (h1 : s.loc ≤ 382) (hs : ∀ i < 191, DOk (s.st i))
    (hc : ones ((s.lung.pack ^^^ 0x3b8d12ac548a7c7a90014964b32f4329) &&& 0x00000000000000013d84e1ac0dc82880) 128 = true)
    (K n : Nat) (h : PeriodFrom dsfmtNext s K n) : 2 ^ 19937 - 1 ∣ n := by
  obtain ⟨hr, hx0⟩ := simdSeq_rec dsfmtStep (N := 191) (P := 117) (by omega) s.st s.lung
  have ok := simdSeq_ok s.st s.lung hs
  have l0 : (simdSeq dsfmtStep 191 117 s.st s.lung 0).2 = s.lung := rfl
  generalize simdSeq dsfmtStep 191 117 s.st s.lung = q at hr hx0 ok l0
  obtain ⟨y, hy⟩ : ∃ y : DSol, y = ⟨fun n => ((q n).1 0, (q n).2), hr⟩ := ⟨_, rfl⟩
  replace ok : ∀ k, DOk (y.1 k).1 := by rw [hy]; exact ok
  replace hx0 : ∀ i < 191, s.st i = (y.1 i).1 := by rw [hy]; exact fun i hi => (hx0 i hi).symm
  replace l0 : s.lung = (y.1 0).2 := by rw [hy]; exact l0.symm
  clear hy hr
  have hh := h.two
  have word : ∀ j, K ≤ j → (y.1 (191 + j + n)).1 = (y.1 (191 + j)).1 := by
    intro j hj
    have half : ∀ b < 2, (if b = 0 then (y.1 (191 + j + n)).1.u0 else (y.1 (191 + j + n)).1.u1) = if b = 0 then (y.1 (191 + j)).1.u0 else (y.1 (191 + j)).1.u1 := by
      intro b hb
      have := hh (382 - s.loc.toNat + 2 * j + b) (by omega)
      rw [C65_dsfmt s h0 h1 (fun k => (y.1 k).1) (fun k => (y.1 k).2) y.2 hx0 l0, C65_dsfmt s h0 h1 (fun k => (y.1 k).1) (fun k => (y.1 k).2) y.2 hx0 l0] at this
      have hl : s.loc.toNat ≤ 382 := by omega
      generalize s.loc.toNat = l at hl this
      rw [if_neg (show ¬ l + (382 - l + 2 * j + b + 2 * n) < 382 by omega), if_neg (show ¬ l + (382 - l + 2 * j + b) < 382 by omega)] at this
      have := Option.some.inj this
      rw [show (l + (382 - l + 2 * j + b + 2 * n) - 382) / 2 = j + n by omega, show (l + (382 - l + 2 * j + b + 2 * n)) % 2 = b by omega,
        show (l + (382 - l + 2 * j + b) - 382) / 2 = j by omega, show (l + (382 - l + 2 * j + b)) % 2 = b by omega, ← Nat.add_assoc] at this
      exact this
    have a := half 0 (by omega)
    have b := half 1 (by omega)
    generalize (y.1 (191 + j + n)).1 = u at a b ⊢
    generalize (y.1 (191 + j)).1 = v at a b ⊢
    cases u; cases v
    simp only [if_pos, one_ne_zero, reduceIte] at a b
    rw [a, b]
  have hlow := dsfmtD_low y ok
  have hne := dsfmt_cert_lam y ok (by rw [← l0]; exact hc)
  have hword : ∀ j, K ≤ j → ((dsfmtD y).1 (191 + j + n)).1 = ((dsfmtD y).1 (191 + j)).1 := by
    intro j hj
    show (y.1 (191 + j + n)).1 + (y.1 (191 + j + n + 1)).1 = (y.1 (191 + j)).1 + (y.1 (191 + j + 1)).1
    rw [word j hj, show 191 + j + n + 1 = 191 + (j + 1) + n by omega, word (j + 1) (by omega), Nat.add_assoc 191 j 1]
  generalize dsfmtD y = z at hlow hne hword
  have hbit : ∀ k, (dsfmtWin z.1 k).val.testBit 19940 = (z.1 (k + 190)).1.u1.getLsbD 0 := by
    intro k
    have := (dsfmtWin_word z.1 k 190 (by decide)).2
    have := congrArg (fun n => n.testBit 0) this
    simp only [Nat.testBit_mod_two_pow, Nat.testBit_shiftRight, BitVec.testBit_toNat] at this
    exact this
  have hw : dsfmtT^[n] (dsfmtWin z.1 (191 + K)) = dsfmtWin z.1 (191 + K) := by
    apply pv_eq
    apply dsfmtT_obs
    intro k
    rw [← pow_apply, map_add, pow_apply, pow_apply, ← Function.iterate_add_apply, dsfmtWin_iter z hlow, ← Function.iterate_add_apply, ← Function.iterate_add_apply,
      ← dsfmtWin_iter z hlow, ← dsfmtWin_iter z hlow, PV.add_val, Nat.testBit_xor, hbit, hbit, show k + n + (191 + K) + 190 = 191 + (K + k + 190) + n by omega,
      hword _ (by omega), show k + (191 + K) + 190 = 191 + (K + k + 190) by omega, Bool.xor_self]
  apply dsfmt_dvd ?_ hw
  rw [dsfmtWin_iter z hlow, ev_iter_comm]
  intro hz
  have hz : (dsfmtT ^ (191 + K)) (ev dsfmtT dsfmtPsi (dsfmtWin z.1 0)) = (dsfmtT ^ (191 + K)) 0 := by rw [map_zero, pow_apply]; exact hz
  exact hne (dsfmtT_pow_inj _ hz)

/-- C77 for DSFMT: from any state of doubles in `[1, 2)` at the end of its buffer the outputs repeat after
`4 (2^19937 - 1) 8778913150980` of them. -/
theorem C77_dsfmt_repeats (s : Dsfmt) (h : s.loc = 382) (hs : ∀ i < 191, DOk (s.st i)) : PeriodFrom dsfmtNext s 0 (4 * ((2 ^ 19937 - 1) * 8778913150980)) := by
  intro k _
  obtain ⟨hr, hx0⟩ := simdSeq_rec dsfmtStep (N := 191) (P := 117) (by omega) s.st s.lung
  have ok := simdSeq_ok s.st s.lung hs
  have l0 : (simdSeq dsfmtStep 191 117 s.st s.lung 0).2 = s.lung := rfl
  generalize simdSeq dsfmtStep 191 117 s.st s.lung = q at hr hx0 ok l0
  obtain ⟨y, hy⟩ : ∃ y : DSol, y = ⟨fun n => ((q n).1 0, (q n).2), hr⟩ := ⟨_, rfl⟩
  replace ok : ∀ k, DOk (y.1 k).1 := by rw [hy]; exact ok
  replace hx0 : ∀ i < 191, s.st i = (y.1 i).1 := by rw [hy]; exact fun i hi => (hx0 i hi).symm
  replace l0 : s.lung = (y.1 0).2 := by rw [hy]; exact l0.symm
  clear hy hr
  obtain ⟨P, hP⟩ : ∃ P, P = (2 ^ 19937 - 1) * 8778913150980 := ⟨_, rfl⟩
  have hper := dsfmt_period
  rw [← hP] at hper ⊢
  have hlow := dsfmtD_low y ok
  have hD : ∀ j, (y.1 (j + P)).1 + (y.1 (j + 1 + P)).1 = (y.1 j).1 + (y.1 (j + 1)).1 := by
    intro j
    have hw : dsfmtWin (dsfmtD y).1 (j + P) = dsfmtWin (dsfmtD y).1 j := by
      rw [dsfmtWin_iter _ hlow, Nat.add_comm, Function.iterate_add_apply, hper, ← dsfmtWin_iter _ hlow]
    have e := congrArg (fun w => (dsfmtRd w).1) hw
    simp only [dsfmtRd_win _ hlow] at e
    rw [Nat.add_right_comm j 1 P]
    exact e
  have hcst : ∀ j, (y.1 (j + P)).1 + (y.1 j).1 = (y.1 P).1 + (y.1 0).1 := by
    intro j
    induction j with
    | zero => rw [Nat.zero_add]
    | succ j ih =>
      rw [← ih]
      have e := hD j
      generalize (y.1 (j + P)).1 = a at e ⊢
      generalize (y.1 (j + 1 + P)).1 = b at e ⊢
      generalize (y.1 j).1 = c at e ⊢
      generalize (y.1 (j + 1)).1 = d at e ⊢
      have : (a + b) + (a + d) = (c + d) + (a + d) := by rw [e]
      rw [show (a + b) + (a + d) = (a + a) + (b + d) by abel, show (c + d) + (a + d) = (d + d) + (a + c) by abel, D128.add_self, D128.add_self, zero_add, zero_add] at this
      exact this
  have hword : ∀ j, (y.1 (j + 2 * P)).1 = (y.1 j).1 := by
    intro j
    have e1 := hcst j
    have e2 := hcst (j + P)
    rw [← e1] at e2
    rw [Nat.two_mul, ← Nat.add_assoc]
    rw [add_comm (y.1 (j + P)).1 (y.1 j).1] at e2
    exact add_right_cancel e2
  rw [C65_dsfmt s (by omega) (by omega) (fun k => (y.1 k).1) (fun k => (y.1 k).2) y.2 hx0 l0,
    C65_dsfmt s (by omega) (by omega) (fun k => (y.1 k).1) (fun k => (y.1 k).2) y.2 hx0 l0, h]
  have hl : (382 : Int).toNat = 382 := rfl
  rw [hl, if_neg (show ¬ 382 + (k + 4 * P) < 382 by omega), if_neg (show ¬ 382 + k < 382 by omega)]
  have e1 : 191 + (382 + (k + 4 * P) - 382) / 2 = 191 + (382 + k - 382) / 2 + 2 * P := by omega
  have e2 : (382 + (k + 4 * P)) % 2 = (382 + k) % 2 := by omega
  rw [e1, e2, hword]

/-- C77 for DSFMT, every seed. -/
theorem C77_dsfmt_seeded (old : Dsfmt) (key : List U32) : PeriodFrom dsfmtNext (dsfmtSeed old key) 0 (4 * ((2 ^ 19937 - 1) * 8778913150980)) ∧
    ∀ K n, PeriodFrom dsfmtNext (dsfmtSeed old key) K n → 2 ^ 19937 - 1 ∣ n := by
  have inv := (DReach.seed old key).inv
  exact ⟨C77_dsfmt_repeats _ rfl inv.2.1, C77_dsfmt _ (show (0 : Int) ≤ 382 by omega) (show (382 : Int) ≤ 382 by omega) inv.2.1 (C37_dsfmt old key)⟩

/-- C77 needs the certified parity: from the zero array, which has parity 0, SFMT has period 1. -/
theorem C77_degenerate (buf : Nat → U64) : PeriodFrom sfmtNext64 ⟨fun _ => ⟨0, 0, 0, 0⟩, buf, 312⟩ 0 1 := by
  intro k _
  have hx : ∀ k : Nat, (fun _ : Nat => (0 : U128)) (k + 156) = sfmtSpec 0 0 0 0 := fun _ => show (0 : U128) = sfmtSpec 0 0 0 0 by decide +kernel
  have hk : ∀ i < 156, (fun _ : Nat => (0 : U128)) i = W128.pack ⟨0, 0, 0, 0⟩ := fun _ _ => show (0 : U128) = W128.pack ⟨0, 0, 0, 0⟩ by decide +kernel
  have h0 : (0 : Int) ≤ 312 := by decide
  have hl : (312 : Int).toNat = 312 := rfl
  rw [C65_sfmt ⟨fun _ => ⟨0, 0, 0, 0⟩, buf, 312⟩ h0 (le_refl _) _ hx hk, C65_sfmt ⟨fun _ => ⟨0, 0, 0, 0⟩, buf, 312⟩ h0 (le_refl _) _ hx hk]
  simp only [hl]
  rw [if_neg (by omega), if_neg (by omega)]
  have e : ∀ b, (0 : U128).extractLsb' b 64 = 0 := fun b => by
    apply BitVec.eq_of_getLsbD_eq
    intro i hi
    simp
  rw [e, e]

/-- The hypotheses of `C77_sfmt` hold for the array whose first bit alone is set. -/
example (K n : Nat) (h : PeriodFrom sfmtNext64 ⟨fun i => ⟨if i = 0 then 1 else 0, 0, 0, 0⟩, fun _ => 0, 5⟩ K n) : 2 ^ 19937 - 1 ∣ n :=
  C77_sfmt _ (show (0 : Int) ≤ 5 by decide) (show (5 : Int) ≤ 312 by decide) (by decide +kernel) K n h

/-- The hypotheses of `C77_dsfmt` hold for the array of ones with lung `(0, 0)`. -/
example (s : Dsfmt) (h1 : s.st = fun _ => ⟨0x3ff0000000000000, 0x3ff0000000000000⟩) (h2 : s.lung = ⟨0, 0⟩) (h3 : s.loc = 382) (K n : Nat)
    (h : PeriodFrom dsfmtNext s K n) : 2 ^ 19937 - 1 ∣ n :=
  C77_dsfmt s (by omega) (by omega) (fun i _ => by
    have : DOk ⟨0x3ff0000000000000, 0x3ff0000000000000⟩ := ⟨by decide, by decide⟩
    rw [h1]; exact this) (by rw [h2]; decide +kernel) K n h

end Verif
