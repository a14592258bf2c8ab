import Verif.Props.NumpyState
import Verif.Props.Session7

/-! C107 for Philox: the words drawn after a state of NumPy was assigned. -/

namespace Verif
namespace NpState

theorem ph_run (hiFirst counter p : Bool) (o : Nat × Nat) (half : Option U32) : ∀ n m (x : CtrI), CAt philoxFam 4 64 0 o (m, half) x →
    bgRun (ctrCls philoxFam hiFirst counter) (p, x) (List.replicate n (.raw .u64)) =
      (List.range n).map fun i => .out (.o64 (ctrStream 4 2 philox o (m + i))) := by
  intro n
  induction n with
  | zero => intros; rfl
  | succ n ih =>
    intro m x h
    obtain ⟨t, e, h'⟩ := CAt.draw ⟨.inr rfl, .inr rfl⟩ (by decide) (show philoxFam.keys 4 ≤ 4 by decide) hiFirst counter h .u64
    have c : bgCall (ctrCls philoxFam hiFirst counter) (p, x) (.raw .u64) = (.out (.o64 (ctrStream 4 2 philox o m)), (p, t)) := by
      simp only [bgCall, ctrCls, e]
      rfl
    rw [List.range_succ_eq_map, List.map_cons, List.map_map, List.replicate_succ, bgRun, c]
    simp only [ih (m + 1) t h', Nat.add_zero, Function.comp_def, Nat.succ_eq_add_one, Nat.add_assoc, Nat.add_comm 1]

/-- `n` 64-bit words drawn from Philox after a state of NumPy was assigned to it, whatever the variant of the instance was: word `pos + i` of the
blocks of the key at the counter and those that follow it. The hypothesis on the buffer is what NumPy's states meet: the words still to be drawn are
those of the block at the counter. -/
theorem C107_philox_stream (hiFirst counter p : Bool) (ctr : Vector U64 4) (key : Vector U64 2) (buf : Vector U64 4) (pos has uint : U32)
    (hp : pos.toNat ≤ 4) (hb : ∀ j (hj : j < 4), pos.toNat ≤ j → buf[j] = (philox ctr.toList key.toList).getD j 0) (t : CtrI) (n : Nat) :
    bgRun (ctrCls philoxFam hiFirst counter) ((ctrCls philoxFam hiFirst counter).set (npPhilox ctr key buf pos has uint) (p, t)).2
        (List.replicate n (.raw .u64)) =
      (List.range n).map fun i => .out (.o64 ((philox (toWords 64 4 (ctr[0].toNat + 2 ^ 64 * (ctr[1].toNat + 2 ^ 64 * (ctr[2].toNat + 2 ^ 64 * ctr[3].toNat)) +
        (pos.toNat + i) / 4)) key.toList).getD ((pos.toNat + i) % 4) 0)) := by
  have hset := C107_philox ctr key buf pos has uint t
  rw [philoxSet] at hset
  have e : ((ctrCls philoxFam hiFirst counter).set (npPhilox ctr key buf pos has uint) (p, t)).2 =
      (p, ⟨4, 64, 4, 64, 4, 64, ctr, #v[key[0], key[1], t.key[2], t.key[3]], buf, pos, has, uint⟩) := by
    simp only [ctrCls, philoxFam, hset]
  have hc : ctr.toList = [ctr[0], ctr[1], ctr[2], ctr[3]] := by
    apply List.ext_getElem
    · simp
    · intro i h1 h2
      rcases i with _ | _ | _ | _ | i
      · rfl
      · rfl
      · rfl
      · rfl
      · simp at h2; omega
  have hk : key.toList = [key[0], key[1]] := by
    apply List.ext_getElem
    · simp
    · intro i h1 h2
      rcases i with _ | _ | i
      · rfl
      · rfl
      · simp at h2
  have hw : ctr[0].toNat + 2 ^ 64 * (ctr[1].toNat + 2 ^ 64 * (ctr[2].toNat + 2 ^ 64 * ctr[3].toNat)) = wval ctr.toList := by
    rw [hc]
    simp only [wval, Nat.mul_zero, Nat.add_zero]
  have hpi : pos.toInt = pos.toNat := by rw [BitVec.toInt_eq_toNat_cond, if_pos (by omega)]
  have hkw : toWords 64 2 (wval key.toList) = key.toList := by
    have := toWords_wval key.toList
    rwa [Vector.length_toList] at this
  rw [e, hw, ph_run hiFirst counter p (wval key.toList, wval ctr.toList + 2 ^ 256 - 1) (if has != 0 then some uint else none) n pos.toNat]
  · apply List.map_congr_left
    intro i _
    rw [ctrStream, hkw, ← toWords_mod 64 4 (wval ctr.toList + _)]
    rw [← toWords_mod 64 4 (_ + 1 + _)]
    have : (wval ctr.toList + 2 ^ 256 - 1 + 1 + (pos.toNat + i) / 4) % 2 ^ (64 * 4) = (wval ctr.toList + (pos.toNat + i) / 4) % 2 ^ (64 * 4) := by
      rw [show wval ctr.toList + 2 ^ 256 - 1 + 1 + (pos.toNat + i) / 4 = wval ctr.toList + (pos.toNat + i) / 4 + 2 ^ (64 * 4) by
        have : (2 : Nat) ^ (64 * 4) = 2 ^ 256 := rfl
        have : 0 < 2 ^ 256 := by positivity
        omega, Nat.add_mod_right]
    rw [this]
  · refine ⟨by unfold CtrOk; exact ⟨.inr rfl, .inr rfl, rfl, rfl, rfl, rfl⟩, rfl, rfl, ?_, ?_, ?_, ?_⟩
    · have hg : (CtrI.gen philoxFam.keys 4 64 ⟨4, 64, 4, 64, 4, 64, ctr, #v[key[0], key[1], t.key[2], t.key[3]], buf, pos, has, uint⟩).ctr = ctr.toList := by
        rw [hc]
        simp [CtrI.gen, hc]
      refine ⟨?_, ?_, pos.toNat, hpi, ?_, ?_⟩
      · simp [CtrI.gen]
      · show List.map _ (List.take 2 _) = _
        rw [show toWords 64 (philoxFam.keys 4) (wval key.toList, wval ctr.toList + 2 ^ 256 - 1).1 = key.toList from hkw, hk]
        simp
      · intro j h1 h2
        rw [hg, show toWords 64 (philoxFam.keys 4) (wval key.toList, wval ctr.toList + 2 ^ 256 - 1).1 = key.toList from hkw]
        refine Eq.trans ?_ (hb j h2 h1)
        simp [CtrI.gen, h2]
      · rw [hg, Nat.min_eq_left hp]
        show 4 * (wval ctr.toList + 2 ^ 256 - 1 + 1) + pos.toNat ≡ _ [MOD 4 * 2 ^ (64 * 4)]
        rw [show 4 * (wval ctr.toList + 2 ^ 256 - 1 + 1) + pos.toNat = 4 * wval ctr.toList + pos.toNat + 4 * 2 ^ (64 * 4) by
          have : (2 : Nat) ^ (64 * 4) = 2 ^ 256 := rfl
          have : 0 < 2 ^ 256 := by positivity
          omega]
        exact Nat.add_mod_right _ _
    · show (0 : Int) ≤ pos.toInt ∧ 0 ≤ pos.toInt ∧ pos.toInt ≤ 4
      omega
    · show (has != 0) = _
      cases has != 0 <;> rfl
    · intro v hv
      show uint = v
      by_cases h : (has != 0) = true
      · rw [if_pos h] at hv
        exact Option.some.inj hv
      · rw [if_neg h] at hv
        cases hv

/-- A state in the middle of a block: two words of the block at counter 1 are still to be drawn, the other two places of the buffer hold anything. -/
example (t : CtrI) : bgRun (ctrCls philoxFam true false) ((ctrCls philoxFam true false).set (npPhilox #v[1, 0, 0, 0] #v[2, 3]
        #v[7, 8, (philox [1, 0, 0, 0] [2, 3]).getD 2 0, (philox [1, 0, 0, 0] [2, 3]).getD 3 0] 2 0 0) (true, t)).2 (List.replicate 3 (.raw .u64)) =
      [.out (.o64 ((philox [1, 0, 0, 0] [2, 3]).getD 2 0)), .out (.o64 ((philox [1, 0, 0, 0] [2, 3]).getD 3 0)),
        .out (.o64 ((philox [2, 0, 0, 0] [2, 3]).getD 0 0))] := by
  rw [C107_philox_stream true false true _ _ _ 2 0 0 (by decide) ?_ t 3]
  · decide +kernel
  · intro j hj h
    have h : 2 ≤ j := h
    obtain rfl | rfl : j = 2 ∨ j = 3 := by omega
    · rfl
    · rfl

end NpState
end Verif
