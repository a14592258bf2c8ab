import Verif.Props.AesSpec

/-! C84: the AES-NI path and the software path agree, and the flag that selects between them. -/

namespace Verif
open Fips197 (mul pow subByte mixColumns shiftRows subBytes keyWord)

theorem niRounds_eq (rk : Nat → U8) (c : AesBlk) (n : Nat) :
    niRounds rk (mmXor c (seedReg rk 0)) n = aesRounds rk n c := by
  induction n with
  | zero =>
    funext i j
    change c i j ^^^ rk (16 * 0 + 4 * i + j) = c i j ^^^ rk (0 * 16 + i * 4 + j)
    rw [show 16 * 0 + 4 * i.val + j.val = 0 * 16 + i * 4 + j by omega]
  | succ n ih =>
    rw [niRounds, ih, aesRounds]
    funext i j
    change mixColumns (subBytes (shiftRows (tr (aesRounds rk n c)))) j i ^^^ rk (16 * (n + 1) + 4 * i + j) =
      tr (aesMix (aesShift (aesSub (aesRounds rk n c)))) j i ^^^ rk ((n + 1) * 16 + i * 4 + j)
    rw [tr_mix, tr_shift, tr_sub, show 16 * (n + 1) + 4 * i.val + j.val = (n + 1) * 16 + i * 4 + j by omega]
    rfl

/-- C84: the AES-NI branch encrypts every block as `tiny_encrypt` does, whatever the round keys. -/
theorem C84_block (rk : Nat → U8) (c : AesBlk) : niBlock rk c = aesEncrypt rk c := by
  rw [niBlock, niRounds_eq, aesEncrypt]
  funext i j
  change subBytes (shiftRows (tr (aesRounds rk 9 c))) j i ^^^ rk (16 * 10 + 4 * i + j) =
    tr (aesShift (aesSub (aesRounds rk 9 c))) j i ^^^ rk (10 * 16 + i * 4 + j)
  rw [tr_shift, tr_sub, show 16 * 10 + 4 * i.val + j.val = 10 * 16 + i * 4 + j by omega]
  rfl

theorem niAdd4_eq (c : Ctr) : niAdd4 c = aesAdd4 c := by
  unfold niAdd4 aesAdd4 mmAddCtr
  by_cases h : c.lo + 4#64 < 4#64
  · simp [h]
  · simp [h]

/-- C84: the AES-NI refill and the software refill leave the same state. -/
theorem C84_refill (s : Aes) : niGen s = aesGen s := by
  simp only [niGen, aesGen, C84_block, niAdd4_eq, aesEnc]

/-- The lanes of the next round key. -/
theorem niKeyRound_eq (k : M128) (rc : U8) (i j : Fin 4) :
    niKeyRound k rc i j = (match i with
      | 0 => k 0 j
      | 1 => k 1 j ^^^ k 0 j
      | 2 => k 2 j ^^^ (k 1 j ^^^ k 0 j)
      | 3 => k 3 j ^^^ (k 2 j ^^^ (k 1 j ^^^ k 0 j))) ^^^ (subByte (k 3 (j + 1)) ^^^ (if j = 0 then rc else 0)) := by
  have x2 : ∀ a b : U8, a ^^^ (a ^^^ b) = b := fun a b => by rw [← BitVec.xor_assoc, BitVec.xor_self, BitVec.zero_xor]
  have x3 : ∀ a b : U8, a ^^^ (b ^^^ a) = b := fun a b => by rw [BitVec.xor_comm b, x2]
  fin_cases i
  · change (k 0 j ^^^ 0#8 ^^^ 0#8 ^^^ 0#8) ^^^ _ = k 0 j ^^^ _
    rw [BitVec.xor_zero, BitVec.xor_zero, BitVec.xor_zero]
    rfl
  · change (((k 1 j ^^^ k 0 j) ^^^ (k 0 j ^^^ 0#8)) ^^^ (k 0 j ^^^ 0#8 ^^^ 0#8)) ^^^ _ = (k 1 j ^^^ k 0 j) ^^^ _
    rw [BitVec.xor_zero, BitVec.xor_zero]
    congr 1
    rw [BitVec.xor_assoc (k 1 j ^^^ k 0 j), BitVec.xor_self, BitVec.xor_zero]
  · change (((k 2 j ^^^ k 1 j) ^^^ (k 1 j ^^^ k 0 j)) ^^^ ((k 1 j ^^^ k 0 j) ^^^ (k 0 j ^^^ 0#8))) ^^^ _ =
      (k 2 j ^^^ (k 1 j ^^^ k 0 j)) ^^^ _
    rw [BitVec.xor_zero]
    congr 1
    simp only [BitVec.xor_assoc, x2]
    rw [BitVec.xor_self, BitVec.xor_zero, BitVec.xor_comm (k 0 j)]
  · change (((k 3 j ^^^ k 2 j) ^^^ (k 2 j ^^^ k 1 j)) ^^^ ((k 2 j ^^^ k 1 j) ^^^ (k 1 j ^^^ k 0 j))) ^^^ _ =
      (k 3 j ^^^ (k 2 j ^^^ (k 1 j ^^^ k 0 j))) ^^^ _
    congr 1
    simp only [BitVec.xor_assoc, x2]
    congr 1
    rw [← BitVec.xor_assoc (k 1 j), BitVec.xor_comm (k 1 j), BitVec.xor_assoc]

/-- Register `r` of the schedule of the standard. -/
def keyReg (key : Nat → U8) (r : Nat) : M128 := fun i j => keyWord key (4 * r + i) j

theorem niKeyRound_spec (key : Nat → U8) (r : Nat) :
    niKeyRound (keyReg key r) (pow 2 r) = keyReg key (r + 1) := by
  have w0 : ∀ j, keyWord key (4 * (r + 1)) j = keyWord key (4 * r) j ^^^
      (subByte (keyWord key (4 * r + 3) (j + 1)) ^^^ (if j = 0 then pow 2 r else 0)) := by
    intro j
    rw [keyWord.eq_def key (4 * (r + 1)), if_neg (by omega), if_pos (by omega)]
    rw [show 4 * (r + 1) - 4 = 4 * r by omega, show 4 * (r + 1) - 1 = 4 * r + 3 by omega]
    simp only [Fips197.subWord, Fips197.rotWord, Fips197.rcon]
    rw [show 4 * (r + 1) / 4 - 1 = r by omega]
  have w : ∀ i, i % 4 ≠ 0 → 4 ≤ i → ∀ j, keyWord key i j = keyWord key (i - 4) j ^^^ keyWord key (i - 1) j := by
    intro i hi h4 j
    rw [keyWord.eq_def key i, if_neg (by omega), if_neg hi]
  have w1 := w (4 * (r + 1) + 1) (by omega) (by omega)
  have w2 := w (4 * (r + 1) + 2) (by omega) (by omega)
  have w3 := w (4 * (r + 1) + 3) (by omega) (by omega)
  rw [show 4 * (r + 1) + 1 - 4 = 4 * r + 1 by omega, show 4 * (r + 1) + 1 - 1 = 4 * (r + 1) by omega] at w1
  rw [show 4 * (r + 1) + 2 - 4 = 4 * r + 2 by omega, show 4 * (r + 1) + 2 - 1 = 4 * (r + 1) + 1 by omega] at w2
  rw [show 4 * (r + 1) + 3 - 4 = 4 * r + 3 by omega, show 4 * (r + 1) + 3 - 1 = 4 * (r + 1) + 2 by omega] at w3
  funext i j
  rw [niKeyRound_eq]
  fin_cases i
  · exact (w0 j).symm
  · change _ = keyWord key (4 * (r + 1) + 1) j
    rw [w1, w0, ← BitVec.xor_assoc (keyWord key (4 * r + 1) j)]; rfl
  · change _ = keyWord key (4 * (r + 1) + 2) j
    rw [w2, w1, w0, ← BitVec.xor_assoc (keyWord key (4 * r + 1) j), ← BitVec.xor_assoc (keyWord key (4 * r + 2) j)]; rfl
  · change _ = keyWord key (4 * (r + 1) + 3) j
    rw [w3, w2, w1, w0, ← BitVec.xor_assoc (keyWord key (4 * r + 1) j),
      ← BitVec.xor_assoc (keyWord key (4 * r + 2) j), ← BitVec.xor_assoc (keyWord key (4 * r + 3) j)]; rfl

theorem niKeys_eq (key : Nat → U8) : niKeys (keyReg key 0) = (List.range 11).map (keyReg key) := by
  have p : ∀ r : Fin 10, [0x01, 0x02, 0x04, 0x08, 0x10, 0x20, 0x40, 0x80, 0x1b, 0x36].getD r.val (0 : U8) =
      pow 2 r.val := by decide +kernel
  have s : ∀ r : Fin 10, niKeyRound (keyReg key r)
      ([0x01, 0x02, 0x04, 0x08, 0x10, 0x20, 0x40, 0x80, 0x1b, 0x36].getD r.val (0 : U8)) = keyReg key (r + 1) :=
    fun r => by rw [p, niKeyRound_spec]
  have s0 : niKeyRound (keyReg key 0) 0x01 = keyReg key 1 := s 0
  have s1 : niKeyRound (keyReg key 1) 0x02 = keyReg key 2 := s 1
  have s2 : niKeyRound (keyReg key 2) 0x04 = keyReg key 3 := s 2
  have s3 : niKeyRound (keyReg key 3) 0x08 = keyReg key 4 := s 3
  have s4 : niKeyRound (keyReg key 4) 0x10 = keyReg key 5 := s 4
  have s5 : niKeyRound (keyReg key 5) 0x20 = keyReg key 6 := s 5
  have s6 : niKeyRound (keyReg key 6) 0x40 = keyReg key 7 := s 6
  have s7 : niKeyRound (keyReg key 7) 0x80 = keyReg key 8 := s 7
  have s8 : niKeyRound (keyReg key 8) 0x1b = keyReg key 9 := s 8
  have s9 : niKeyRound (keyReg key 9) 0x36 = keyReg key 10 := s 9
  rw [niKeys]
  simp only [List.scanl_cons, List.scanl_nil, s0, s1, s2, s3, s4, s5, s6, s7, s8, s9]
  rfl

/-- C84: the AES-NI key schedule writes the bytes `tinyaes_expand_key` writes. -/
theorem C84_schedule (k0 k1 : U64) : niExpandKey k0 k1 = aesExpandKey k0 k1 := by
  funext n
  have h0 : ctrToBlk ⟨k0, k1⟩ = keyReg (ctrByte ⟨k0, k1⟩) 0 := by
    funext i j
    rw [keyReg, keyWord, if_pos (by omega)]
    simp only [ctrToBlk, ctrByte]
    rw [show i.val * 4 + j.val = 4 * (4 * 0 + i.val) + j.val by omega]
  rw [niExpandKey, h0, niKeys_eq]
  by_cases hn : n < 176
  · rw [List.getD_eq_getElem?_getD, List.getElem?_map, List.getElem?_range (by omega)]
    have := aesExpandKey_spec k0 k1 (n / 4) (n % 4) (by omega) (Nat.mod_lt _ (by decide))
    rw [show 4 * (n / 4) + n % 4 = n by omega] at this
    rw [this]
    change keyWord _ (4 * (n / 16) + n / 4 % 4) _ = _
    rw [show 4 * (n / 16) + n / 4 % 4 = n / 4 by omega]
  · rw [aesExpandKey_out _ _ _ (by omega), List.getD_eq_getElem?_getD,
      List.getElem?_eq_none (by rw [List.length_map, List.length_range]; omega)]
    rfl

/-- C84: a draw does not depend on the flag, as long as the flag is set only on a host that has the instructions. -/
theorem C84_next (h : AesHost) (flag : Bool) (hf : flag = true → (h.compiled && h.cpu) = true) (s : Aes) :
    aesNextF h flag s = aesNext s := by
  unfold aesNextF aesNext
  by_cases ho : s.offset ≥ 64
  · rw [if_pos ho, if_pos ho]
    cases flag with
    | false => rfl
    | true => rw [if_pos rfl, if_pos (hf rfl), C84_refill]
  · rw [if_neg ho, if_neg ho]

/-- C84: seeding is defined on every host, gives the software key schedule, and leaves the flag set exactly if the instructions can be run. -/
theorem C84_seed (h : AesHost) (old : Aes) (k0 k1 : U64) (c : Nat) :
    ∃ flag, aesSeedF h old k0 k1 c = some (flag, aesSeed old k0 k1 c) ∧ (flag = true ↔ h.compiled = true ∧ h.cpu = true) := by
  refine ⟨h.capable, ?_, by simp [AesHost.capable]⟩
  obtain ⟨a, b⟩ := h
  cases a <;> cases b <;> simp [aesSeedF, aesSeed, C84_schedule, AesHost.capable]

theorem useAesni_ok (h : AesHost) (v : Bool) (hv : (useAesni h v).1 = true) : (h.compiled && h.cpu) = true := by
  unfold useAesni at hv
  show h.capable = true
  cases hc : h.capable
  · cases v <;> simp_all
  · rfl

/-- A program run on software only: the flag plays no part. -/
def softRun (gens : Nat → Aes) : List AesOp → Option (List U64 × (Nat → Aes))
  | [] => some ([], gens)
  | .seed g k0 k1 c :: os => softRun (Function.update gens g (aesSeed (gens g) k0 k1 c)) os
  | .toggle _ :: os => softRun gens os
  | .next g :: os => do
    let r ← aesNext (gens g)
    let t ← softRun (Function.update gens g r.2) os
    some (r.1 :: t.1, t.2)

/-- C84: whatever the host and however a program interleaves seeding, drawing and assignments to `use_aesni` on
any number of generators, the draws and the generators are those of the software path, and the flag is never left
set on a host without the instructions. -/
theorem C84_program (h : AesHost) (p : AesProc) (hp : p.flag = true → (h.compiled && h.cpu) = true) (ops : List AesOp) :
    (aesRun h p ops).map (fun r => (r.1, r.2.gens)) = softRun p.gens ops ∧
      ∀ r ∈ aesRun h p ops, r.2.flag = true → (h.compiled && h.cpu) = true := by
  induction ops generalizing p with
  | nil => exact ⟨rfl, fun r hr => by cases hr; exact hp⟩
  | cons o os ih =>
    cases o with
    | seed g k0 k1 c =>
      obtain ⟨flag, hs, hf⟩ := C84_seed h (p.gens g) k0 k1 c
      have := ih ⟨flag, Function.update p.gens g (aesSeed (p.gens g) k0 k1 c)⟩ (fun h => by rw [Bool.and_eq_true]; exact hf.1 h)
      refine ⟨?_, fun r hr => ?_⟩
      · rw [softRun, ← this.1]
        simp only [aesRun, aesOp, hs, Option.map_some, Option.bind_eq_bind, Option.bind_some]
        cases aesRun h _ os <;> rfl
      · simp only [aesRun, aesOp, hs, Option.map_some, Option.bind_eq_bind, Option.bind_some, Option.mem_def] at hr
        rw [Option.bind_eq_some_iff] at hr
        obtain ⟨t, ht, hr⟩ := hr
        cases hr
        exact this.2 t ht
    | toggle v =>
      have := ih ⟨(useAesni h v).1, p.gens⟩ (useAesni_ok h v)
      refine ⟨?_, fun r hr => ?_⟩
      · rw [softRun, ← this.1]
        simp only [aesRun, aesOp, Option.bind_eq_bind, Option.bind_some]
        cases aesRun h _ os <;> rfl
      · simp only [aesRun, aesOp, Option.bind_eq_bind, Option.bind_some, Option.mem_def] at hr
        rw [Option.bind_eq_some_iff] at hr
        obtain ⟨t, ht, hr⟩ := hr
        cases hr
        exact this.2 t ht
    | next g =>
      rw [softRun]
      simp only [aesRun, aesOp, C84_next h p.flag hp, Option.bind_eq_bind]
      cases hn : aesNext (p.gens g) with
      | none => exact ⟨rfl, fun r hr => by cases hr⟩
      | some r =>
        have := ih ⟨p.flag, Function.update p.gens g r.2⟩ hp
        refine ⟨?_, fun r' hr => ?_⟩
        · simp only [Option.map_some, Option.bind_some]
          rw [← this.1]
          cases aesRun h _ os <;> rfl
        · simp only [Option.map_some, Option.bind_some, Option.mem_def] at hr
          rw [Option.bind_eq_some_iff] at hr
          obtain ⟨t, ht, hr⟩ := hr
          cases hr
          exact this.2 t ht

/-- A host with AES-NI, its flag cleared, two fresh generators: the hypothesis of `C84_program` holds, the program mixes
both paths, and the draws are defined. -/
example (gens : Nat → Aes) : ∃ r, aesRun ⟨true, true⟩ ⟨false, gens⟩
    [.seed 0 1 2 0, .seed 1 3 4 (2 ^ 128 - 1), .next 0, .toggle false, .next 1, .toggle true, .next 0] = some r ∧
      r.1.length = 3 := ⟨_, rfl, rfl⟩

/-- C84, what holds of `use_aesni`: an accepted assignment stays in force while the program only draws, and assigning
`True` is refused exactly on a host that cannot run the instructions. Missing: it does not survive seeding, see
`not_C84_toggle`. -/
theorem C84_toggle_partial (h : AesHost) (p : AesProc) (v : Bool) (hv : (useAesni h v).2 = false) (gs : List Nat) :
    (∀ r ∈ aesRun h p (.toggle v :: gs.map .next), r.2.flag = v) ∧ ((useAesni h true).2 = true ↔ ¬ (h.compiled = true ∧ h.cpu = true)) := by
  have key : ∀ (gs : List Nat) (p : AesProc), ∀ r ∈ aesRun h p (gs.map .next), r.2.flag = p.flag := by
    intro gs
    induction gs with
    | nil => intro p r hr; cases hr; rfl
    | cons g gs ih =>
      intro p r hr
      simp only [List.map_cons, aesRun, aesOp, Option.bind_eq_bind, Option.mem_def] at hr
      rw [Option.bind_eq_some_iff] at hr
      obtain ⟨q, hq, hr⟩ := hr
      rw [Option.bind_eq_some_iff] at hr
      obtain ⟨t, ht, hr⟩ := hr
      cases hr
      rw [Option.map_eq_some_iff] at hq
      obtain ⟨x, -, rfl⟩ := hq
      exact ih ⟨p.flag, Function.update p.gens g x.2⟩ t ht
  constructor
  · intro r hr
    simp only [aesRun, aesOp, Option.bind_eq_bind, Option.bind_some, Option.mem_def] at hr
    rw [Option.bind_eq_some_iff] at hr
    obtain ⟨t, ht, hr⟩ := hr
    cases hr
    rw [key gs _ _ ht]
    unfold useAesni at hv ⊢
    split <;> simp_all
  · obtain ⟨a, b⟩ := h
    cases a <;> cases b <;> simp [useAesni, AesHost.capable]

example : (useAesni ⟨true, true⟩ false).2 = false := rfl

/-- C84: seeding undoes `use_aesni = False`. On a host with the instructions, after the assignment (on any generator),
seeding any generator, the constructor included, leaves the flag set for every generator. -/
theorem not_C84_toggle (h : AesHost) (h1 : h.compiled = true) (h2 : h.cpu = true) (p : AesProc) (g : Nat) (k0 k1 : U64) (c : Nat) :
    ∃ r, aesRun h p [.toggle false, .seed g k0 k1 c] = some r ∧ r.2.flag = true := by
  obtain ⟨flag, hs, hf⟩ := C84_seed h (p.gens g) k0 k1 c
  exact ⟨([], ⟨flag, _⟩), by simp only [aesRun, aesOp, hs, Option.map_some, Option.bind_eq_bind, Option.bind_some]; rfl, hf.2 ⟨h1, h2⟩⟩

end Verif
