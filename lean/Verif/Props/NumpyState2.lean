import Verif.Props.NumpyState
import Verif.Props.Session10

/-! C107 for MT19937: the words drawn after a state of NumPy was assigned. -/

namespace Verif
namespace NpState

/-- The tempering of the Mersenne Twister. -/
def temper (y : U32) : U32 :=
  let y := y ^^^ (y >>> 11)
  let y := y ^^^ ((y <<< 7) &&& 0x9d2c5680)
  let y := y ^^^ ((y <<< 15) &&& 0xefc60000)
  y ^^^ (y >>> 18)

theorem temper_eq (y : U32) : temper32 y = temper y := rfl

theorem mt_run (hiFirst p : Bool) (w : Nat → U32) : ∀ n m (x : Mt32I), Mt32At w (m, none) x →
    bgRun (mt32Cls hiFirst) (p, x) (List.replicate n (.raw .u32)) = (List.range n).map fun i => .out (.o32 (w (m + i))) := by
  intro n
  induction n with
  | zero => intros; rfl
  | succ n ih =>
    intro m x h
    obtain ⟨t, e, h'⟩ := h.draw hiFirst .u32
    have c : bgCall (mt32Cls hiFirst) (p, x) (.raw .u32) = (.out (.o32 (w m)), (p, mt32Put t)) := by
      simp only [bgCall, mt32Cls, e]
      rfl
    rw [List.range_succ_eq_map, List.map_cons, List.map_map, List.replicate_succ, bgRun, c]
    simp only [ih (m + 1) (mt32Put t) h', Nat.add_zero, Function.comp_def, Nat.succ_eq_add_one, Nat.add_assoc, Nat.add_comm 1]

/-- `n` 32-bit words drawn from MT19937 after a state of NumPy, with its position in the array or at its end, was assigned to it, in either mode: the
tempered terms, from the position on, of the solution `x` of the recurrence that starts with the array. -/
theorem C107_mt19937_stream (hiFirst p : Bool) (key : Vector U32 624) (pos : U32) (h : pos.toNat ≤ 624) (t : Mt32I) (x : Nat → U32)
    (hx : ∀ k, x (k + 624) = x (k + 397) ^^^ (((x k &&& 0x80000000) ||| (x (k + 1) &&& 0x7fffffff)) >>> 1) ^^^
      (if (x (k + 1)).getLsbD 0 then 0x9908b0df else 0)) (hk : ∀ i (hi : i < 624), x i = key[i]) (n : Nat) :
    bgRun (mt32Cls hiFirst) ((mt32Cls hiFirst).set (npMt19937 key pos) (p, t)).2 (List.replicate n (.raw .u32)) =
      (List.range n).map fun i => .out (.o32 (temper (x (pos.toNat + i)))) := by
  have e : ((mt32Cls hiFirst).set (npMt19937 key pos) (p, t)).2 = (p, ⟨key, pos⟩) := by simp only [mt32Cls, C107_mt19937]
  have hp : pos.toInt = pos.toNat := by rw [BitVec.toInt_eq_toNat_cond, if_pos (by omega)]
  have h0 : (0 : Int) ≤ (mt32View ⟨key, pos⟩).pos := by show 0 ≤ pos.toInt; omega
  have h1 : (mt32View ⟨key, pos⟩).pos ≤ 624 := by show pos.toInt ≤ 624; omega
  rw [e, mt_run hiFirst p (fun i => temper (x (pos.toNat + i))) n 0 ⟨key, pos⟩ ⟨fun i => ?_, rfl, h0, h1⟩]
  · simp only [Nat.zero_add]
  · rw [C34_mt19937 _ h0 h1 x hx (fun i hi => by rw [hk i hi]; show _ = if h : i < 624 then key[i] else 0; rw [dif_pos hi]) i, temper_eq,
      show (mt32View ⟨key, pos⟩).pos = pos.toInt from rfl, hp, Nat.zero_add, Int.toNat_natCast]

/-- There is a solution for every array: NumPy's own states meet the hypotheses. -/
example (key : Vector U32 624) : ∃ x : Nat → U32, (∀ k, x (k + 624) = x (k + 397) ^^^ (((x k &&& 0x80000000) ||| (x (k + 1) &&& 0x7fffffff)) >>> 1) ^^^
      (if (x (k + 1)).getLsbD 0 then 0x9908b0df else 0)) ∧ ∀ i (hi : i < 624), x i = key[i] := by
  obtain ⟨x, a, b⟩ := mt32_solution fun i => if h : i < 624 then key[i] else 0
  exact ⟨x, a, fun i hi => (b i hi).trans (dif_pos hi)⟩

end NpState
end Verif
