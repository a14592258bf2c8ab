import Verif.Common.Draw
import Verif.Model.Doubles
import Mathlib.Data.List.Basic

/-! Property C09: 32-bit draws are the halves of the 64-bit stream. Everything is stated for an
arbitrary 64-bit source `nx : σ → U64 × σ`, hence for every generator of the family. -/

namespace Verif.Buf
variable {σ : Type} (nx : σ → U64 × σ)

/-- Specification: the two halves of a word, low half first. -/
def halves (w : U64) : List U32 := [w.extractLsb' 0 32, w.extractLsb' 32 32]

/-- `n` consecutive 32-bit draws. -/
def draws32 : Nat → Buf σ → List U32
  | 0, _ => []
  | n + 1, b => (next32 nx b).1 :: draws32 n (next32 nx b).2

theorem halves_eq (w : U64) : halves w = [w.truncate 32, (w >>> 32).truncate 32] := by
  have h1 : w.extractLsb' 0 32 = w.truncate 32 := by
    apply BitVec.eq_of_getLsbD_eq; intro i hi; simp
  have h2 : w.extractLsb' 32 32 = (w >>> 32).truncate 32 := by
    apply BitVec.eq_of_getLsbD_eq; intro i hi; simp
  rw [halves, h1, h2]

theorem next32_two (b : Buf σ) (hb : b.has = false) :
    draws32 nx 2 b = halves (nx b.core).1 ∧
      (next32 nx (next32 nx b).2).2.core = (nx b.core).2 ∧
      (next32 nx (next32 nx b).2).2.has = false := by
  rw [halves_eq]
  simp [draws32, next32, hb]

/-- C09: from an empty cache, `2n` consecutive 32-bit draws are the low and high halves of `n`
consecutive 64-bit words. -/
theorem C09_draws32_even (n : Nat) (b : Buf σ) (hb : b.has = false) :
    draws32 nx (2 * n) b = (drawN nx n b.core).flatMap halves := by
  induction n generalizing b with
  | zero => rfl
  | succ n ih =>
    obtain ⟨h1, h2, h3⟩ := next32_two nx b hb
    have e : draws32 nx (2 * (n + 1)) b =
        draws32 nx 2 b ++ draws32 nx (2 * n) (next32 nx (next32 nx b).2).2 := rfl
    rw [e, h1, ih _ h3, h2]
    rfl

/-- C09: for odd counts the last draw is the low half of the next word. -/
theorem C09_draws32_odd (n : Nat) (b : Buf σ) (hb : b.has = false) :
    draws32 nx (2 * n + 1) b =
      (drawN nx n b.core).flatMap halves ++
        [(nthDraw nx n b.core).extractLsb' 0 32] := by
  induction n generalizing b with
  | zero =>
    have h := halves_eq (nx b.core).1
    simp only [halves, List.cons.injEq] at h
    simp [draws32, drawN, nthDraw, next32, hb]
    rw [h.1]
  | succ n ih =>
    obtain ⟨h1, h2, h3⟩ := next32_two nx b hb
    have e : draws32 nx (2 * (n + 1) + 1) b =
        draws32 nx 2 b ++ draws32 nx (2 * n + 1) (next32 nx (next32 nx b).2).2 := rfl
    rw [e, h1, ih _ h3, h2]
    simp [drawN, nthDraw, stepOf]

/-! #### Arbitrary interleavings -/

/-- The half waiting to be delivered. -/
def pending (b : Buf σ) : List U32 := if b.has then [b.uinteger] else []

/-- The 32-bit results of a run, in order. -/
def outs32 : List Out → List U32
  | [] => []
  | .o32 v :: t => v :: outs32 t
  | _ :: t => outs32 t

/-- The other results of a run, in order. -/
def outsWide : List Out → List Out
  | [] => []
  | .o32 _ :: t => outsWide t
  | o :: t => o :: outsWide t

/-- What a draw of the given wide kind must return for the raw word `w`. -/
def wideOf : Op → U64 → Out
  | .dbl, w => .odbl (Doubles.dbl64 w)
  | _, w => .o64 w

/-- C09: for every finite interleaving of 32-bit, 64-bit and double draws there is a marking of the
consumed raw words as "split" or "whole" such that: the generator core has moved by exactly the
number of consumed words; the wide draws returned, in order, exactly the whole words; the 32-bit
draws returned, in order, the previously pending half followed by the halves of the split words,
except the half (if any) that is now pending. So no half is lost, repeated or reordered. -/
theorem C09_interleaving (ops : List Op) (b : Buf σ) :
    ∃ marks : List (Bool × U64),
      marks.map Prod.snd = drawN nx marks.length b.core ∧
      (run nx ops b).2.core = (stepOf nx)^[marks.length] b.core ∧
      outs32 (run nx ops b).1 ++ pending (run nx ops b).2 =
        pending b ++ (marks.filter Prod.fst).flatMap (fun p => halves p.2) ∧
      outsWide (run nx ops b).1 =
        List.zipWith wideOf (ops.filter (· ≠ .u32))
          ((marks.filter (fun p => !p.1)).map Prod.snd) ∧
      (marks.filter (fun p => !p.1)).length = (ops.filter (· ≠ .u32)).length := by
  induction ops generalizing b with
  | nil => exact ⟨[], by simp [run, drawN, outs32, outsWide]⟩
  | cons o ops ih =>
    cases o with
    | u32 =>
      by_cases hb : b.has
      · obtain ⟨m, h1, h2, h3, h4, h5⟩ := ih (next32 nx b).2
        have hc : (next32 nx b).2.core = b.core := by simp [next32, hb]
        have hp : pending (next32 nx b).2 = [] := by simp [next32, hb, pending]
        have hv : (next32 nx b).1 = b.uinteger := by simp [next32, hb]
        rw [hc] at h1 h2
        rw [hp] at h3
        refine ⟨m, h1, ?_, ?_, ?_, by simpa using h5⟩
        · simpa [run, op] using h2
        · simp only [run, op, outs32, hv, List.cons_append, pending, hb, if_true]
          simp only [List.nil_append] at h3
          rw [← h3]; simp [pending]
        · simpa [run, op, outsWide] using h4
      · obtain ⟨m, h1, h2, h3, h4, h5⟩ := ih (next32 nx b).2
        have hc : (next32 nx b).2.core = (nx b.core).2 := by simp [next32, hb]
        have hh := halves_eq (nx b.core).1
        have hp : pending (next32 nx b).2 = [((nx b.core).1 >>> 32).truncate 32] := by
          simp [next32, hb, pending]
        have hv : (next32 nx b).1 = (nx b.core).1.truncate 32 := by simp [next32, hb]
        rw [hc] at h1 h2
        rw [hp] at h3
        refine ⟨(true, (nx b.core).1) :: m, ?_, ?_, ?_, ?_, by simpa using h5⟩
        · simp [drawN, h1]
        · simpa [run, op, stepOf] using h2
        · simp only [run, op, outs32, hv, List.cons_append, h3]
          simp [pending, hb, hh]
        · simpa [run, op, outsWide] using h4
    | u64 =>
      obtain ⟨m, h1, h2, h3, h4, h5⟩ := ih (next64 nx b).2
      refine ⟨(false, (nx b.core).1) :: m, ?_, ?_, ?_, ?_, by simpa using h5⟩
      · simpa [drawN, next64] using h1
      · simpa [run, op, stepOf, next64] using h2
      · rw [show pending (next64 nx b).2 = pending b from rfl] at h3
        simpa [run, op, outs32] using h3
      · have h4' := h4
        simp only [next64] at h4'
        simp [run, op, outsWide, wideOf, next64, h4']
    | dbl =>
      obtain ⟨m, h1, h2, h3, h4, h5⟩ := ih (nextDouble nx b).2
      refine ⟨(false, (nx b.core).1) :: m, ?_, ?_, ?_, ?_, by simpa using h5⟩
      · simpa [drawN, nextDouble] using h1
      · simpa [run, op, stepOf, nextDouble] using h2
      · rw [show pending (nextDouble nx b).2 = pending b from rfl] at h3
        simpa [run, op, outs32] using h3
      · have h4' := h4
        simp only [nextDouble] at h4'
        simp [run, op, outsWide, wideOf, nextDouble, Doubles.dbl64, h4']

/-- C09: the wide list in `C09_interleaving` is not cut short by the `zipWith`: there is exactly one
whole word per wide draw. -/
theorem C09_wide_count (ops : List Op) (b : Buf σ) :
    (outsWide (run nx ops b).1).length = (ops.filter (· ≠ .u32)).length ∧
    (outs32 (run nx ops b).1).length = (ops.filter (· = .u32)).length := by
  induction ops generalizing b with
  | nil => simp [run, outs32, outsWide]
  | cons o ops ih =>
    obtain ⟨h1, h2⟩ := ih (op nx o b).2
    cases o <;> simp_all [run, op, outs32, outsWide]

/-- C09: a 64-bit or double draw leaves the pending half untouched. -/
theorem C09_wide_keeps_half (b : Buf σ) :
    pending (next64 nx b).2 = pending b ∧ pending (nextDouble nx b).2 = pending b := by
  exact ⟨rfl, rfl⟩

/-- A concrete counter-like source used as example. -/
example : (run (fun s : U64 => (s, s + 1)) [.u32, .u64, .u32, .u32]
    ⟨0x0000000200000001, false, 0⟩).1 =
    [.o32 1, .o64 0x0000000200000002, .o32 2, .o32 3] := by decide +kernel

end Verif.Buf
