import Verif.Proof.CtrMode

/-! The Philox and ThreeFry block functions are injective for every key. -/

namespace Verif

/-- `f` maps lists of length `N` injectively to lists of length `N`. -/
def PermN {α : Type} (N : Nat) (f : List α → List α) : Prop :=
  (∀ l, l.length = N → (f l).length = N) ∧ ∀ l m, l.length = N → m.length = N → f l = f m → l = m

theorem PermN.comp {α : Type} {N : Nat} {f g : List α → List α} (hf : PermN N f) (hg : PermN N g) : PermN N (fun l => f (g l)) :=
  ⟨fun l h => hf.1 _ (hg.1 l h), fun l m hl hm h => hg.2 l m hl hm (hf.2 _ _ (hg.1 l hl) (hg.1 m hm) h)⟩

theorem PermN.id {α : Type} {N : Nat} : PermN N (fun l : List α => l) := ⟨fun _ h => h, fun _ _ _ _ h => h⟩

theorem len2 {α : Type} {l : List α} (h : l.length = 2) : ∃ a b, l = [a, b] := by
  match l, h with | [a, b], _ => exact ⟨a, b, rfl⟩
theorem len4 {α : Type} {l : List α} (h : l.length = 4) : ∃ a b c d, l = [a, b, c, d] := by
  match l, h with | [a, b, c, d], _ => exact ⟨a, b, c, d, rfl⟩
theorem len1 {α : Type} {l : List α} (h : l.length = 1) : ∃ a, l = [a] := by
  match l, h with | [a], _ => exact ⟨a, rfl⟩

/-! ### Philox -/

theorem mulhilo_lo {w : Nat} (a b : BitVec w) : (mulhilo a b).2 = a * b := by
  apply BitVec.eq_of_toNat_eq
  simp only [mulhilo, BitVec.truncate_eq_setWidth, BitVec.toNat_setWidth, BitVec.toNat_mul]
  have h1 : a.toNat % 2 ^ (2 * w) = a.toNat := Nat.mod_eq_of_lt (lt_of_lt_of_le a.isLt (Nat.pow_le_pow_right (by decide) (by omega)))
  have h2 : b.toNat % 2 ^ (2 * w) = b.toNat := Nat.mod_eq_of_lt (lt_of_lt_of_le b.isLt (Nat.pow_le_pow_right (by decide) (by omega)))
  rw [h1, h2, Nat.mod_mod_of_dvd _ (pow_dvd_pow 2 (by omega))]

theorem philoxM0_odd {N w : Nat} (V : Variant N w) : (philoxM0 N w).toNat % 2 = 1 := by
  rcases V.hN with rfl | rfl <;> rcases V.hw with rfl | rfl <;> rfl

theorem philoxM1_odd {N w : Nat} (V : Variant N w) : (philoxM1 w).toNat % 2 = 1 := by
  rcases V.hw with rfl | rfl <;> rfl

theorem philoxRound_perm {N w : Nat} (V : Variant N w) (key : List (BitVec w)) (hk : key.length = N / 2) :
    PermN N (fun c => philoxRound c key) := by
  have m0 := philoxM0_odd V
  have m1 := philoxM1_odd V
  rcases V.hN with rfl | rfl
  · obtain ⟨k0, rfl⟩ := len1 hk
    constructor
    · intro l hl
      obtain ⟨a, b, rfl⟩ := len2 hl
      rfl
    · intro l m hl hm h
      obtain ⟨a, b, rfl⟩ := len2 hl
      obtain ⟨c, d, rfl⟩ := len2 hm
      simp only [philoxRound, List.cons.injEq, and_true, mulhilo_lo] at h
      obtain ⟨h1, h2⟩ := h
      have hac : a = c := mul_odd_inj _ m0 h2
      subst hac
      rw [xor_left_inj' _ h1]
  · obtain ⟨k0, k1, rfl⟩ := len2 hk
    constructor
    · intro l hl
      obtain ⟨a, b, c, d, rfl⟩ := len4 hl
      rfl
    · intro l m hl hm h
      obtain ⟨a, b, c, d, rfl⟩ := len4 hl
      obtain ⟨a', b', c', d', rfl⟩ := len4 hm
      simp only [philoxRound, List.cons.injEq, and_true, mulhilo_lo] at h
      obtain ⟨h1, h2, h3, h4⟩ := h
      have ha : a = a' := mul_odd_inj _ m0 h4
      have hc : c = c' := mul_odd_inj _ m1 h2
      subst ha; subst hc
      rw [xor_left_inj' _ (xor_right_inj' _ h1), xor_left_inj' _ (xor_right_inj' _ h3)]

theorem philoxBump_length {w : Nat} (key : List (BitVec w)) : (philoxBump key).length = key.length := by
  unfold philoxBump; split <;> rfl

theorem philoxR_perm {N w : Nat} (V : Variant N w) (r : Nat) (key : List (BitVec w)) (hk : key.length = N / 2) :
    PermN N (fun c => philoxR r c key) := by
  induction r generalizing key with
  | zero => exact PermN.id
  | succ r ih =>
    exact (ih (philoxBump key) (by rw [philoxBump_length, hk])).comp (philoxRound_perm V key hk)

theorem philox_perm {N w : Nat} (V : Variant N w) (key : List (BitVec w)) (hk : key.length = N / 2) :
    PermN N (fun c => philox c key) := philoxR_perm V 10 key hk

/-! ### ThreeFry -/

theorem tfRotl_eq {w n : Nat} (hn : n < w) (x : BitVec w) : tfRotl x n = x.rotateLeft n := by
  rw [tfRotl, BitVec.rotateLeft_def, Nat.mod_eq_of_lt hn]
  by_cases h : n = 0
  · subst h
    rw [Nat.sub_zero, Nat.mod_self, BitVec.ushiftRight_zero, BitVec.ushiftRight_eq_zero le_rfl]
    simp
  · rw [Nat.mod_eq_of_lt (by omega)]

theorem tfMix_inj {w n : Nat} (hn : n < w) {a b c d : BitVec w} (h : tfMix a b n = tfMix c d n) : a = c ∧ b = d := by
  simp only [tfMix, Prod.mk.injEq] at h
  obtain ⟨h1, h2⟩ := h
  rw [h1] at h2
  have h3 := xor_right_inj' _ h2
  rw [tfRotl_eq hn, tfRotl_eq hn] at h3
  have hb := rotateLeft_inj hn h3
  subst hb
  exact ⟨add_right_cancel h1, rfl⟩

theorem tfRot_lt {N w : Nat} (V : Variant N w) (r : Nat) :
    ((tfRotTable N w).getD (r % 8) (0, 0)).1 < w ∧ ((tfRotTable N w).getD (r % 8) (0, 0)).2 < w := by
  have h : ∀ i < 8, ((tfRotTable N w).getD i (0, 0)).1 < w ∧ ((tfRotTable N w).getD i (0, 0)).2 < w := by
    rcases V.hN with rfl | rfl <;> rcases V.hw with rfl | rfl <;> decide
  exact h _ (Nat.mod_lt _ (by decide))

theorem tfRound_perm {N w : Nat} (V : Variant N w) (r : Nat) : PermN N (tfRound (w := w) r) := by
  have hr := tfRot_lt V r
  rcases V.hN with rfl | rfl
  · constructor
    · intro l hl
      obtain ⟨a, b, rfl⟩ := len2 hl
      rfl
    · intro l m hl hm h
      obtain ⟨a, b, rfl⟩ := len2 hl
      obtain ⟨c, d, rfl⟩ := len2 hm
      simp only [tfRound, List.cons.injEq, and_true] at h
      obtain ⟨rfl, rfl⟩ := tfMix_inj hr.1 (Prod.ext h.1 h.2)
      rfl
  · constructor
    · intro l hl
      obtain ⟨a, b, c, d, rfl⟩ := len4 hl
      simp only [tfRound]
      split <;> rfl
    · intro l m hl hm h
      obtain ⟨a, b, c, d, rfl⟩ := len4 hl
      obtain ⟨a', b', c', d', rfl⟩ := len4 hm
      simp only [tfRound] at h
      split at h
      · simp only [List.cons.injEq, and_true] at h
        obtain ⟨h1, h2, h3, h4⟩ := h
        obtain ⟨rfl, rfl⟩ := tfMix_inj hr.1 (Prod.ext h1 h2)
        obtain ⟨rfl, rfl⟩ := tfMix_inj hr.2 (Prod.ext h3 h4)
        rfl
      · simp only [List.cons.injEq, and_true] at h
        obtain ⟨h1, h2, h3, h4⟩ := h
        obtain ⟨rfl, rfl⟩ := tfMix_inj hr.1 (Prod.ext h1 h4)
        obtain ⟨rfl, rfl⟩ := tfMix_inj hr.2 (Prod.ext h3 h2)
        rfl

theorem tfInject_perm {N w : Nat} (V : Variant N w) (ks : List (BitVec w)) (r : Nat) : PermN N (tfInject ks r) := by
  rcases V.hN with rfl | rfl
  · constructor
    · intro l hl
      obtain ⟨a, b, rfl⟩ := len2 hl
      rfl
    · intro l m hl hm h
      obtain ⟨a, b, rfl⟩ := len2 hl
      obtain ⟨c, d, rfl⟩ := len2 hm
      simp only [tfInject, List.cons.injEq, and_true, add_left_inj] at h
      obtain ⟨rfl, rfl⟩ := h
      rfl
  · constructor
    · intro l hl
      obtain ⟨a, b, c, d, rfl⟩ := len4 hl
      rfl
    · intro l m hl hm h
      obtain ⟨a, b, c, d, rfl⟩ := len4 hl
      obtain ⟨a', b', c', d', rfl⟩ := len4 hm
      simp only [tfInject, List.cons.injEq, and_true, add_left_inj] at h
      obtain ⟨rfl, rfl, rfl, rfl⟩ := h
      rfl

theorem threefryR_perm {N w : Nat} (V : Variant N w) (key : List (BitVec w)) (n : Nat) : PermN N (threefryR key n) := by
  induction n with
  | zero => exact tfInject_perm V _ 0
  | succ n ih =>
    have h := (tfRound_perm V n).comp ih
    by_cases h4 : (n + 1) % 4 = 0
    · have : threefryR key (n + 1) = fun x => tfInject (tfKs key) ((n + 1) / 4) (tfRound n (threefryR key n x)) := by
        funext x; rw [threefryR, if_pos h4]
      rw [this]
      exact (tfInject_perm V _ _).comp h
    · have : threefryR key (n + 1) = fun x => tfRound n (threefryR key n x) := by
        funext x; rw [threefryR, if_neg h4]
      rw [this]
      exact h

theorem threefry_perm {N w : Nat} (V : Variant N w) (key : List (BitVec w)) : PermN N (fun c => threefry c key) :=
  threefryR_perm V key 20

end Verif
