import Verif.Proof.SfmtPower
import Verif.Proof.JumpCert

/-! The jump tables of SFMT advance by `2^e` words (C66), for every state; a jump of SFMT is therefore `2^129` draws of
64 bits, not `2^128` (C68). -/

namespace Verif
open Verif.Linear Verif.GF2

/-- The coefficients of the jump polynomial `poly_e` of SFMT. -/
def sfmtCoeffs (e : Nat) : List Bool := jumpCoeffs (sfmtPoly e).1 (sfmtPoly e).2

theorem sfmt_pow (e : Nat) (he : e ∈ [128, 132, 136, 140, 144]) :
    ev sfmtT ((sfmtPoly e).1 % 2 ^ (4 * (sfmtPoly e).2)) = sfmtT ^ 2 ^ e := by
  obtain ⟨h1, h2, h3, h4, h5⟩ := sfmt_powers
  have hm : ∀ e ∈ [128, 132, 136, 140, 144], (sfmtPoly e).1 < 2 ^ (4 * (sfmtPoly e).2) := by decide +kernel
  rw [Nat.mod_eq_of_lt (hm e he)]
  clear hm
  simp only [List.mem_cons, List.not_mem_nil, or_false] at he
  rcases he with rfl | rfl | rfl | rfl | rfl
  exacts [h1, h2, h3, h4, h5]

theorem pack_xor (a b : W128) : (a.xor b).pack = a.pack ^^^ b.pack := by
  apply BitVec.eq_of_getLsbD_eq
  intro i hi
  rw [BitVec.getLsbD_xor, pack_bit, pack_bit, pack_bit]
  simp only [W128.xor]
  split
  · exact BitVec.getLsbD_xor
  split
  · exact BitVec.getLsbD_xor
  split
  · exact BitVec.getLsbD_xor
  · exact BitVec.getLsbD_xor

theorem pack_inj {a b : W128} (h : a.pack = b.pack) : a = b := by
  rw [← unpack_pack a, ← unpack_pack b, h]

/-- C66 for the tables of SFMT: for every state the jump with `poly_e` gives the words `2^e` places further on. -/
theorem C66_sfmt_tables (e : Nat) (he : e ∈ [128, 132, 136, 140, 144]) (st : Nat → W128) (x : Nat → W128)
    (hx : ∀ k, x (k + 156) = sfmtRec (x k) (x (k + 122)) (x (k + 154)) (x (k + 155))) (h0 : ∀ i < 156, st i = x i) (i : Nat) (hi : i < 156) :
    sfmtJump (sfmtCoeffs e) st i = x (2 ^ e + i) := by
  rw [C66_sfmt (sfmtCoeffs e) st x hx h0 i hi]
  apply pack_inj
  have hX : ∀ k, (x (k + 156)).pack = sfmtSpec (x k).pack (x (k + 122)).pack (x (k + 154)).pack (x (k + 155)).pack := fun k => by
    rw [hx, sfmtRec_pack]
  obtain ⟨X, hXd⟩ : ∃ X : Nat → U128, X = fun k => (x k).pack := ⟨_, rfl⟩
  have hX' : ∀ k, X (k + 156) = sfmtSpec (X k) (X (k + 122)) (X (k + 154)) (X (k + 155)) := by rw [hXd]; exact hX
  rw [pick_map W128.pack W128.xor (· ^^^ ·) pack_xor]
  have e1 : (fun k => (x (k + i)).pack) = fun k => sfmtWord i (sfmtT^[k] (sfmtWin X 0)) := by
    funext k
    rw [← sfmtWin_iter X hX', sfmtWord_win X k i hi, hXd]
  have e2 : W128.pack ⟨0, 0, 0, 0⟩ = sfmtWord i (0 : PV 19968) := by
    rw [sfmtWord, PV.zero_val, Nat.zero_shiftRight]; decide
  rw [e1, e2, ← pick_map (sfmtWord i) (· + ·) (· ^^^ ·) (sfmtWord_add i), sfmtCoeffs, jumpCoeffs, pick_eq_ev PV.add_self, sfmt_pow e he, zero_add,
    pow_apply, ← sfmtWin_iter X hX', sfmtWord_win X _ i hi, hXd]

/-- `jump_inplace` of SFMT (sfmt.pyx:173-188, `sfmt_jump_n` sfmt.c:443-464): the array is replaced, the buffer is
emptied (`_reset_state_variables`). -/
def sfmtJumps (count : Nat) (s : Sfmt) : Sfmt :=
  { s with st := jumpN (fun e st => sfmtJump (sfmtCoeffs e) st) count s.st, loc := 312 }

theorem plan_words (plan : List Nat) (hp : ∀ e ∈ plan, e ∈ [128, 132, 136, 140, 144]) (x : Nat → W128)
    (hx : ∀ k, x (k + 156) = sfmtRec (x k) (x (k + 122)) (x (k + 154)) (x (k + 155))) (st : Nat → W128) (o : Nat) (h0 : ∀ i < 156, st i = x (o + i)) :
    ∀ i < 156, plan.foldl (fun st e => sfmtJump (sfmtCoeffs e) st) st i = x (o + (plan.map (2 ^ ·)).sum + i) := by
  induction plan generalizing st o with
  | nil => simpa using h0
  | cons e es ih =>
    intro i hi
    rw [List.foldl_cons, List.map_cons, List.sum_cons, ← Nat.add_assoc o]
    refine ih (fun e' he' => hp e' (List.mem_cons_of_mem _ he')) _ (o + 2 ^ e) (fun j hj => ?_) i hi
    rw [C66_sfmt_tables e (hp e List.mem_cons_self) st (fun k => x (o + k)) (fun k => by
      rw [← Nat.add_assoc, hx, Nat.add_assoc, Nat.add_assoc, Nat.add_assoc]) h0 j hj, ← Nat.add_assoc]

/-- C36 for SFMT: `count` jumps advance the array by exactly `count * 2^128` words of 128 bits. -/
theorem C36_sfmt (count : Nat) (st x : Nat → W128) (hx : ∀ k, x (k + 156) = sfmtRec (x k) (x (k + 122)) (x (k + 154)) (x (k + 155)))
    (h0 : ∀ i < 156, st i = x i) : ∀ i < 156, jumpN (fun e st => sfmtJump (sfmtCoeffs e) st) count st i = x (count * 2 ^ 128 + i) := by
  obtain ⟨h1, h2⟩ := C36_strides count
  intro i hi
  rw [jumpN, ← h1]
  have := plan_words (jumpPlan count) h2 x hx st 0 (by simpa using h0) i hi
  rwa [Nat.zero_add] at this

/-- C68 for SFMT, the true distance: `count` jumps skip what is left of the current block of 312 numbers and then exactly
`count * 2^129` draws, from every state and for all following draws. Missing: the documented distance `count * 2^128`. -/
theorem C68_sfmt_partial (s : Sfmt) (h0 : 0 ≤ s.loc) (h1 : s.loc ≤ 312) (count n : Nat) :
    nthO sfmtNext64 n (sfmtJumps count s) = nthO sfmtNext64 (n + count * 2 ^ 129 + (312 - s.loc.toNat)) s := by
  obtain ⟨X, hX, hk⟩ := sfmt_solution (fun i => (s.st i).pack)
  have hx : ∀ k, W128.unpack (X (k + 156)) = sfmtRec (W128.unpack (X k)) (W128.unpack (X (k + 122))) (W128.unpack (X (k + 154))) (W128.unpack (X (k + 155))) := by
    intro k
    apply pack_inj
    rw [sfmtRec_pack, pack_unpack, pack_unpack, pack_unpack, pack_unpack, pack_unpack, hX]
  have hj := C36_sfmt count s.st (fun k => W128.unpack (X k)) hx (fun i hi => by
    apply pack_inj
    rw [pack_unpack, hk i hi])
  obtain ⟨o, ho⟩ : ∃ o, o = count * 2 ^ 128 := ⟨_, rfl⟩
  rw [C65_sfmt s h0 h1 X hX hk, C65_sfmt (sfmtJumps count s) (by decide : (0 : Int) ≤ 312) (by decide : (312 : Int) ≤ 312) (fun k => X (o + k)) (fun k => by
    show X (o + (k + 156)) = _
    rw [← Nat.add_assoc, hX, Nat.add_assoc, Nat.add_assoc, Nat.add_assoc]) (fun i hi => by
    show X (o + i) = (jumpN (fun e st => sfmtJump (sfmtCoeffs e) st) count s.st i).pack
    rw [hj i hi, pack_unpack, ho])]
  have hl : (sfmtJumps count s).loc.toNat = 312 := rfl
  have e2 : count * 2 ^ 129 = 2 * o := by rw [ho]; ring
  rw [hl, e2, if_neg (by omega), if_neg (by omega)]
  have e3 : o + (156 + (312 + n - 312) / 2) = 156 + (s.loc.toNat + (n + 2 * o + (312 - s.loc.toNat)) - 312) / 2 := by omega
  have e4 : (312 + n) % 2 = (s.loc.toNat + (n + 2 * o + (312 - s.loc.toNat))) % 2 := by omega
  rw [e3, e4]

/-- A state in the middle of a block, to which the theorem applies: its draw after one jump. -/
example : nthO sfmtNext64 5 (sfmtJumps 1 ⟨fun i => ⟨BitVec.ofNat 32 (i + 1), 7, 0, BitVec.ofNat 32 (i * i)⟩, fun _ => 0, 300⟩) =
    nthO sfmtNext64 (5 + 2 ^ 129 + 12) ⟨fun i => ⟨BitVec.ofNat 32 (i + 1), 7, 0, BitVec.ofNat 32 (i * i)⟩, fun _ => 0, 300⟩ := by
  have := C68_sfmt_partial ⟨fun i => ⟨BitVec.ofNat 32 (i + 1), 7, 0, BitVec.ofNat 32 (i * i)⟩, fun _ => 0, 300⟩ (by decide) (by decide) 1 5
  rw [Nat.one_mul] at this
  exact this

theorem end_eq_one {V : Type} [AddCommGroup V] (f : AddMonoid.End V) (h : ∀ v, f v = v) : f = 1 := AddMonoidHom.ext h

/-- An odd polynomial annihilates the map: it is injective, and so are its powers. -/
theorem sfmtT_pow_inj (k : Nat) {a b : PV 19968} (h : (sfmtT ^ k) a = (sfmtT ^ k) b) : a = b := by
  have hi := injective_of_ann PV.add_self sfmtT sfmtChi (by decide +kernel) sfmt_ann.1
  rw [pow_apply, pow_apply] at h
  exact hi.iterate k h

/-- `2^128` steps do not return to the start, whatever the state before. -/
theorem sfmtT_pow_ne : sfmtT ^ 2 ^ 128 ≠ 1 := by
  intro h
  have e := sfmt_powers.1
  rw [h] at e
  have e2 : ev sfmtT (sfmtPoly128 ^^^ 1) = 0 := by
    rw [ev_xor sfmtT (end_add_self PV.add_self), e, ev_one]
    exact end_add_self PV.add_self 1
  have := sfmt_ann.2.2 (sfmtPoly128 ^^^ 1) (by decide +kernel) e2
  exact absurd this (by decide +kernel)

/-- C68 fails for SFMT: the generator returned by `jumped()` does not continue `2^128` draws further on. -/
theorem not_C68_sfmt : ¬ ∀ s : Sfmt, s.loc = 312 → ∀ n, nthO sfmtNext64 n (sfmtJumps 1 s) = nthO sfmtNext64 (n + 2 ^ 128) s := by
  intro H
  apply sfmtT_pow_ne
  have key : ∀ w : PV 19968, (sfmtT ^ 2 ^ 127) w = w := by
    intro w
    obtain ⟨X, hX, hk⟩ := sfmt_solution (fun i => sfmtWord i w)
    have hw : sfmtWin X 0 = w := by
      apply PV.ext'
      show pk 156 (fun i => X (0 + i)) = w.val
      rw [pk_congr 156 _ (fun i => BitVec.ofNat 128 (w.val >>> (128 * i))) (fun i hi => by rw [Nat.zero_add, hk i hi]; rfl)]
      exact pk_words (by decide) 156 w.val w.lt
    obtain ⟨s, hs1, hs2⟩ : ∃ s : Sfmt, s.loc = 312 ∧ ∀ i < 156, X i = (s.st i).pack :=
      ⟨⟨fun i => W128.unpack (X i), fun _ => 0, 312⟩, rfl, fun i _ => (pack_unpack _).symm⟩
    have hh : ∀ n, (X (156 + (n + 2 ^ 129) / 2)).extractLsb' (64 * (n % 2)) 64 = (X (156 + (n + 2 ^ 128) / 2)).extractLsb' (64 * (n % 2)) 64 := by
      intro n
      have h := H s hs1 n
      rw [C68_sfmt_partial s (by omega) (by omega), C65_sfmt s (by omega) (by omega) X hX hs2, C65_sfmt s (by omega) (by omega) X hX hs2, hs1] at h
      have hl : (312 : Int).toNat = 312 := rfl
      rw [hl, if_neg (by omega), if_neg (by omega)] at h
      have h := Option.some.inj h
      rw [show 312 + (n + 1 * 2 ^ 129 + (312 - 312)) - 312 = n + 2 ^ 129 by omega, show (312 + (n + 1 * 2 ^ 129 + (312 - 312))) % 2 = n % 2 by omega,
        show 312 + (n + 2 ^ 128) - 312 = n + 2 ^ 128 by omega, show (312 + (n + 2 ^ 128)) % 2 = n % 2 by omega] at h
      exact h
    have hX2 : ∀ j, X (156 + 2 ^ 128 + j) = X (156 + 2 ^ 127 + j) := by
      intro j
      have a := hh (2 * j)
      have b := hh (2 * j + 1)
      rw [show (2 * j + 2 ^ 129) / 2 = 2 ^ 128 + j by omega, show (2 * j + 2 ^ 128) / 2 = 2 ^ 127 + j by omega, show 2 * j % 2 = 0 by omega, ← Nat.add_assoc,
        ← Nat.add_assoc] at a
      rw [show (2 * j + 1 + 2 ^ 129) / 2 = 2 ^ 128 + j by omega, show (2 * j + 1 + 2 ^ 128) / 2 = 2 ^ 127 + j by omega, show (2 * j + 1) % 2 = 1 by omega, ← Nat.add_assoc,
        ← Nat.add_assoc] at b
      generalize X (156 + 2 ^ 128 + j) = u at a b ⊢
      generalize X (156 + 2 ^ 127 + j) = v at a b ⊢
      apply BitVec.eq_of_getLsbD_eq
      intro i hi
      by_cases h : i < 64
      · have := congrArg (fun z : BitVec 64 => z.getLsbD i) a
        simpa [BitVec.getLsbD_extractLsb', h] using this
      · have := congrArg (fun z : BitVec 64 => z.getLsbD (i - 64)) b
        simp only [BitVec.getLsbD_extractLsb', show i - 64 < 64 by omega, decide_true, Bool.true_and, show 64 * 1 + (i - 64) = i by omega] at this
        exact this
    have hwin : sfmtWin X (156 + 2 ^ 128) = sfmtWin X (156 + 2 ^ 127) := by
      apply PV.ext'
      exact pk_congr 156 _ _ (fun i _ => hX2 i)
    rw [sfmtWin_iter X hX, sfmtWin_iter X hX (156 + 2 ^ 127), hw, ← pow_apply, ← pow_apply, show 156 + 2 ^ 128 = (156 + 2 ^ 127) + 2 ^ 127 by norm_num, pow_add sfmtT,
      mul_apply] at hwin
    exact sfmtT_pow_inj _ hwin
  have h1 := end_eq_one _ key
  rw [show 2 ^ 128 = 2 ^ 127 * 2 by norm_num, pow_mul, h1, one_pow]

end Verif
