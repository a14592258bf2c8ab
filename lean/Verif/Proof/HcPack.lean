import Verif.Proof.Hc128

/-! Evaluation of the reference HC-128 with each table packed into one natural number, for concrete keys. -/

namespace Verif.HC

/-- Word `i` of a packed table. -/
def getW (T i : Nat) : U32 := BitVec.ofNat 32 (T >>> (32 * i))
/-- The packed table with word `i` replaced. -/
def setW (T i : Nat) (v : U32) : Nat := T ^^^ ((((T >>> (32 * i)) % 2 ^ 32) ^^^ v.toNat) <<< (32 * i))

theorem getW_setW (T i : Nat) (v : U32) (j : Nat) : getW (setW T i v) j = if j = i then v else getW T j := by
  apply BitVec.eq_of_getLsbD_eq
  intro k hk
  have e : (v.toNat).testBit (32 * j + k - 32 * i) = v.getLsbD (32 * j + k - 32 * i) := BitVec.testBit_toNat v
  simp only [getW, setW, BitVec.getLsbD_ofNat, Nat.testBit_shiftRight, Nat.testBit_xor, Nat.testBit_shiftLeft, Nat.testBit_mod_two_pow]
  by_cases h : j = i
  · subst h
    rw [if_pos rfl, e, Nat.add_sub_cancel_left]
    simp [hk]
  · rw [if_neg h, e, BitVec.getLsbD_ofNat, Nat.testBit_shiftRight]
    by_cases hj : j < i
    · rw [show decide (32 * j + k ≥ 32 * i) = false from decide_eq_false (by omega)]
      simp
    · rw [show decide (32 * j + k - 32 * i < 32) = false from decide_eq_false (by omega),
        BitVec.getLsbD_of_ge v _ (by omega)]
      simp

/-- The packed table holds the first `n` words of the function. -/
def Packs (n T : Nat) (f : Nat → U32) : Prop := ∀ i < n, getW T i = f i

theorem Packs.set {n T : Nat} {f : Nat → U32} (h : Packs n T f) (i : Nat) (v : U32) : Packs n (setW T i v) (Function.update f i v) := by
  intro j hj
  rw [getW_setW, Function.update_apply]
  by_cases e : j = i
  · rw [if_pos e, if_pos e]
  · rw [if_neg e, if_neg e, h j hj]

/-- `F` applied at the indices `m - k` up to `m - 1`; the number is evaluated at each step. -/
def loop (F : Nat → Nat → Nat) (m : Nat) : Nat → Nat → Nat
  | 0, T => T
  | k + 1, 0 => loop F m k (F (m - (k + 1)) 0)
  | k + 1, T + 1 => loop F m k (F (m - (k + 1)) (T + 1))

theorem loop_succ (F : Nat → Nat → Nat) (m k T : Nat) : loop F m (k + 1) T = loop F m k (F (m - (k + 1)) T) := by
  cases T <;> rfl

/-- The word `W[i]` of the expansion, from the words before. -/
def expandAt (i T : Nat) : Nat :=
  setW T i (refF2 (getW T (i - 2)) + getW T (i - 7) + refF1 (getW T (i - 15)) + getW T (i - 16) + BitVec.ofNat 32 i)

theorem expand_loop (k m : Nat) (h16 : 16 + k ≤ m) (hm : m ≤ 1280) (T : Nat) (w : Nat → U32) (h : Packs 1280 T w) :
    Packs 1280 (loop expandAt m k T) ((List.range' (m - k) k).foldl
      (fun w i => Function.update w i (refF2 (w (i - 2)) + w (i - 7) + refF1 (w (i - 15)) + w (i - 16) + BitVec.ofNat 32 i)) w) := by
  induction k generalizing T w with
  | zero => exact h
  | succ k ih =>
    rw [loop_succ, List.range'_succ, List.foldl_cons, show m - (k + 1) + 1 = m - k by omega]
    refine ih (by omega) _ _ ?_
    rw [expandAt, h _ (show m - (k + 1) - 2 < 1280 by omega), h _ (show m - (k + 1) - 7 < 1280 by omega),
      h _ (show m - (k + 1) - 15 < 1280 by omega), h _ (show m - (k + 1) - 16 < 1280 by omega)]
    exact h.set _ _

theorem refH_pack {T : Nat} {f : Nat → U32} (h : Packs 512 T f) (u : U32) : refH (getW T) u = refH f u := by
  have h1 : (u.truncate 8).toNat < 256 := (u.truncate 8).isLt
  have h2 : ((u >>> 16).truncate 8).toNat < 256 := ((u >>> 16).truncate 8).isLt
  rw [refH, refH, h _ (by omega), h _ (by omega)]

/-- The new word of a table at index `i`. -/
def updAt (g : U32 → U32 → U32 → U32) (i T : Nat) : Nat :=
  setW T i (getW T i + g (getW T (refIx i 3)) (getW T (refIx i 10)) (getW T (refIx i 511)))

theorem updAt_pack {T : Nat} {f : Nat → U32} (h : Packs 512 T f) (g : U32 → U32 → U32 → U32) (i : Nat) (hi : i < 512) :
    Packs 512 (updAt g i T) (refUpd g f i) := by
  rw [updAt, refUpd, h _ hi, h _ (refIx_lt _ _), h _ (refIx_lt _ _), h _ (refIx_lt _ _)]
  exact h.set _ _

/-- The keystream word after the update. -/
def outAt (Q i T : Nat) : U32 := refH (getW Q) (getW T (refIx i 12)) ^^^ getW T i

theorem outAt_pack {T Q : Nat} {f q : Nat → U32} (h : Packs 512 T f) (hq : Packs 512 Q q) (i : Nat) (hi : i < 512) :
    outAt Q i T = refH q (f (refIx i 12)) ^^^ f i := by
  rw [outAt, refH_pack hq, h _ (refIx_lt _ _), h _ hi]

/-- One initialising step on the table being changed. -/
def initAt (g : U32 → U32 → U32 → U32) (Q i T : Nat) : Nat := setW (updAt g i T) i (outAt Q i (updAt g i T))

theorem initP_loop (k m : Nat) (hk : k ≤ m) (hm : m ≤ 512) (T Q : Nat) (s : HcRef) (hc : s.c = m - k) (hP : Packs 512 T s.P) (hQ : Packs 512 Q s.Q) :
    Packs 512 (loop (initAt refG1 Q) m k T) (refInitStep^[k] s).P ∧ (refInitStep^[k] s).Q = s.Q ∧ (refInitStep^[k] s).c = m := by
  induction k generalizing T s with
  | zero => exact ⟨hP, rfl, by rw [Function.iterate_zero_apply]; omega⟩
  | succ k ih =>
    have hlt : s.c < 512 := by omega
    have e : refInitStep s = ⟨Function.update (refUpd refG1 s.P s.c) s.c (refH s.Q (refUpd refG1 s.P s.c (refIx s.c 12)) ^^^ refUpd refG1 s.P s.c s.c), s.Q, s.c + 1⟩ := by
      rw [refInitStep, if_pos hlt, refStep, if_pos hlt]
      dsimp only
      rw [Nat.mod_eq_of_lt hlt, Nat.mod_eq_of_lt (show s.c + 1 < 1024 by omega)]
    have hu := updAt_pack hP refG1 s.c hlt
    have := ih (by omega) (initAt refG1 Q s.c T) (refInitStep s) (by rw [e]; show s.c + 1 = _; omega)
      (by rw [e, initAt, outAt_pack hu hQ _ hlt]; exact hu.set _ _) (by rw [e]; exact hQ)
    rw [loop_succ, ← hc, Function.iterate_succ_apply]
    refine ⟨this.1, this.2.1.trans (by rw [e]), this.2.2⟩

theorem initQ_loop (k m : Nat) (hk : k ≤ m) (hm : m ≤ 512) (T P : Nat) (s : HcRef) (hc : s.c = (512 + (m - k)) % 1024) (hP : Packs 512 P s.P)
    (hQ : Packs 512 T s.Q) :
    Packs 512 (loop (initAt refG2 P) m k T) (refInitStep^[k] s).Q ∧ (refInitStep^[k] s).P = s.P ∧ (refInitStep^[k] s).c = (512 + m) % 1024 := by
  induction k generalizing T s with
  | zero => exact ⟨hQ, rfl, by rw [Function.iterate_zero_apply, hc, Nat.sub_zero]⟩
  | succ k ih =>
    have hge : ¬ s.c < 512 := by omega
    obtain ⟨i, hi, hci⟩ : ∃ i, i = m - (k + 1) ∧ s.c % 512 = i := ⟨_, rfl, by omega⟩
    have hlt : i < 512 := by omega
    have e : refInitStep s = ⟨s.P, Function.update (refUpd refG2 s.Q i) i (refH s.P (refUpd refG2 s.Q i (refIx i 12)) ^^^ refUpd refG2 s.Q i i), (s.c + 1) % 1024⟩ := by
      rw [refInitStep, if_neg hge, refStep, if_neg hge]
      dsimp only
      rw [hci]
    have hu := updAt_pack hQ refG2 i hlt
    have := ih (by omega) (initAt refG2 P i T) (refInitStep s) (by rw [e]; show (s.c + 1) % 1024 = _; omega)
      (by rw [e]; exact hP) (by rw [e, initAt, outAt_pack hu hP _ hlt]; exact hu.set _ _)
    rw [loop_succ, ← hi, Function.iterate_succ_apply]
    exact ⟨this.1, this.2.1.trans (by rw [e]), this.2.2⟩

/-- The first sixteen words of the expansion: key twice, initial vector twice. -/
def firstW (key iv : Nat → U32) : Nat :=
  (List.range 16).foldl (fun T i => setW T i (if i < 4 then key i else if i < 8 then key (i - 4) else if i < 12 then iv (i - 8) else iv (i - 12))) 0

/-- The two packed tables after initialisation. -/
def initPack (key iv : Nat → U32) : Nat × Nat :=
  let W := loop expandAt 1280 1264 (firstW key iv)
  let P := loop (initAt refG1 (W >>> (32 * 768))) 512 512 (W >>> (32 * 256))
  (P, loop (initAt refG2 P) 512 512 (W >>> (32 * 768)))

/-- The first `k` keystream words, `k ≤ 512`, from word `m - k`. -/
def firstWords (Q m : Nat) : Nat → Nat → List Nat
  | 0, _ => []
  | k + 1, 0 => let T := updAt refG1 (m - (k + 1)) 0; (outAt Q (m - (k + 1)) T).toNat :: firstWords Q m k T
  | k + 1, T + 1 => let T := updAt refG1 (m - (k + 1)) (T + 1); (outAt Q (m - (k + 1)) T).toNat :: firstWords Q m k T

theorem firstW_pack (key iv : Nat → U32) : ∀ i < 16, getW (firstW key iv) i =
    if i < 4 then key i else if i < 8 then key (i - 4) else if i < 12 then iv (i - 8) else iv (i - 12) := by
  have : ∀ (f : Nat → U32) (n : Nat), ∀ i < n, getW ((List.range n).foldl (fun T i => setW T i (f i)) 0) i = f i := by
    intro f n
    induction n with
    | zero => intro i h; omega
    | succ n ih =>
      intro i h
      rw [List.range_succ, List.foldl_append, List.foldl_cons, List.foldl_nil, getW_setW]
      by_cases e : i = n
      · rw [if_pos e, e]
      · rw [if_neg e, ih i (by omega)]
  exact fun i hi => this _ 16 i hi

theorem getW_shift (T a i : Nat) : getW (T >>> (32 * a)) i = getW T (i + a) := by
  rw [getW, getW, ← Nat.shiftRight_add]
  congr 2; ring

/-- The values of the function where the expansion starts do not matter beyond word 15: it overwrites them. -/
theorem expand_pack (key iv : Nat → U32) : Packs 1280 (loop expandAt 1280 1264 (firstW key iv)) ((List.range' 16 1264).foldl
    (fun w i => Function.update w i (refF2 (w (i - 2)) + w (i - 7) + refF1 (w (i - 15)) + w (i - 16) + BitVec.ofNat 32 i))
    (fun i => if i < 4 then key i else if i < 8 then key (i - 4) else if i < 12 then iv (i - 8) else iv (i - 12))) := by
  have h := expand_loop 1264 1280 (by decide) (by decide) (firstW key iv) (fun i => if i < 16 then (if i < 4 then key i else if i < 8 then key (i - 4) else if i < 12 then iv (i - 8) else iv (i - 12)) else getW (firstW key iv) i)
    (fun i _ => by
      show _ = if i < 16 then _ else _
      by_cases h : i < 16
      · rw [firstW_pack key iv i h, if_pos h]
      · rw [if_neg h])
  have loc : ∀ (k a : Nat) (v w : Nat → U32), 16 ≤ a → (∀ i < a, v i = w i) → ∀ i < a + k,
      (List.range' a k).foldl (fun w i => Function.update w i (refF2 (w (i - 2)) + w (i - 7) + refF1 (w (i - 15)) + w (i - 16) + BitVec.ofNat 32 i)) v i =
      (List.range' a k).foldl (fun w i => Function.update w i (refF2 (w (i - 2)) + w (i - 7) + refF1 (w (i - 15)) + w (i - 16) + BitVec.ofNat 32 i)) w i := by
    intro k
    induction k with
    | zero => intro a v w _ h i hi; exact h i hi
    | succ k ih =>
      intro a v w ha h i hi
      rw [List.range'_succ, List.foldl_cons, List.foldl_cons]
      refine ih (a + 1) _ _ (by omega) (fun j hj => ?_) i (by omega)
      rw [Function.update_apply, Function.update_apply, h _ (show a - 2 < a by omega), h _ (show a - 7 < a by omega), h _ (show a - 15 < a by omega),
        h _ (show a - 16 < a by omega)]
      by_cases e : j = a
      · rw [if_pos e, if_pos e]
      · rw [if_neg e, if_neg e, h j (by omega)]
  intro i hi
  rw [h i hi]
  refine loc 1264 16 _ _ (by decide) (fun j hj => ?_) i hi
  show (if j < 16 then _ else _) = _
  rw [if_pos hj]

theorem initPack_spec (key iv : Nat → U32) :
    Packs 512 (initPack key iv).1 (refInit key iv).P ∧ Packs 512 (initPack key iv).2 (refInit key iv).Q ∧ (refInit key iv).c = 0 := by
  have hW := expand_pack key iv
  rw [refInit, initPack]
  generalize (List.range' 16 1264).foldl _ _ = w at hW ⊢
  generalize loop expandAt 1280 1264 (firstW key iv) = W at hW ⊢
  dsimp only
  have hP : Packs 512 (W >>> (32 * 256)) fun i => w (i + 256) := fun i hi => by rw [getW_shift, hW _ (by omega)]
  have hQ : Packs 512 (W >>> (32 * 768)) fun i => w (i + 256 + 512) := fun i hi => by rw [getW_shift, hW _ (by omega), show i + 768 = i + 256 + 512 from rfl]
  have h1 := initP_loop 512 512 (le_refl _) (le_refl _) _ _ ⟨fun i => w (i + 256), fun i => w (i + 256 + 512), 0⟩ rfl hP hQ
  rw [show (1024 : Nat) = 512 + 512 from rfl, Function.iterate_add_apply]
  generalize refInitStep^[512] ⟨fun i => w (i + 256), fun i => w (i + 256 + 512), 0⟩ = s at h1 ⊢
  have h2 := initQ_loop 512 512 (le_refl _) (le_refl _) (W >>> (32 * 768)) _ s (by rw [h1.2.2]) h1.1 (by rw [h1.2.1]; exact hQ)
  refine ⟨?_, h2.1, h2.2.2⟩
  rw [h2.2.1]
  exact h1.1

theorem firstWords_spec (k m : Nat) (hk : k ≤ m) (hm : m ≤ 512) (T Q : Nat) (s : HcRef) (hc : s.c = m - k) (hP : Packs 512 T s.P) (hQ : Packs 512 Q s.Q) :
    firstWords Q m k T = (List.range k).map fun i => (nthDraw refStep i s).toNat := by
  induction k generalizing T s with
  | zero => rfl
  | succ k ih =>
    have hlt : s.c < 512 := by omega
    have e : refStep s = (refH s.Q (refUpd refG1 s.P s.c (refIx s.c 12)) ^^^ refUpd refG1 s.P s.c s.c, ⟨refUpd refG1 s.P s.c, s.Q, s.c + 1⟩) := by
      rw [refStep, if_pos hlt]
      dsimp only
      rw [Nat.mod_eq_of_lt hlt, Nat.mod_eq_of_lt (show s.c + 1 < 1024 by omega)]
    have hu := updAt_pack hP refG1 s.c hlt
    have hf : firstWords Q m (k + 1) T = (outAt Q s.c (updAt refG1 s.c T)).toNat :: firstWords Q m k (updAt refG1 s.c T) := by
      rw [hc]
      cases T <;> rfl
    rw [hf, List.range_succ_eq_map, List.map_cons, List.map_map]
    congr 1
    · rw [outAt_pack hu hQ _ hlt, nthDraw, Function.iterate_zero_apply, e]
    · rw [ih (by omega) _ (refStep s).2 (by rw [e]; show s.c + 1 = _; omega) (by rw [e]; exact hu) (by rw [e]; exact hQ)]
      rfl

/-- The first `m` words of the keystream, `m ≤ 512`. -/
theorem words_eq (key iv : Nat → U32) (m : Nat) (hm : m ≤ 512) :
    (List.range m).map (fun i => (nthDraw refStep i (refInit key iv)).toNat) = firstWords (initPack key iv).2 m m (initPack key iv).1 :=
  (firstWords_spec m m (le_refl _) hm _ _ _ (by rw [(initPack_spec key iv).2.2, Nat.sub_self]) (initPack_spec key iv).1 (initPack_spec key iv).2.1).symm

end Verif.HC
