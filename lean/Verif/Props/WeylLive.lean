import Verif.Props.Weyl

/-! C41, continued: `SFC64.weyl_increments` when the internal integer sampler never returns its upper end point, and what
happens when it does. -/

namespace Verif

/-- `cum` holds the running sums, from `acc`, of the numbers `rem` of values still available per bit count. -/
def CumOk : Nat → List (Int × U64) → List Nat → Prop
  | _, [], [] => True
  | acc, (_, c) :: cs, r :: rs => c.toNat = acc + r ∧ CumOk (acc + r) cs rs
  | _, _, _ => False

theorem CumOk.length {acc : Nat} {cum : List (Int × U64)} {rem : List Nat} (h : CumOk acc cum rem) :
    cum.length = rem.length := by
  induction cum generalizing acc rem with
  | nil => cases rem with
    | nil => rfl
    | cons => simp [CumOk] at h
  | cons c cs ih =>
    cases rem with
    | nil => simp [CumOk] at h
    | cons r rs => simp only [CumOk] at h; simp [ih h.2]

theorem CumOk.last {acc : Nat} {cum : List (Int × U64)} {rem : List Nat} (h : CumOk acc cum rem) (hne : cum ≠ []) :
    (lastCum cum).toNat = acc + rem.sum := by
  induction cum generalizing acc rem with
  | nil => exact absurd rfl hne
  | cons c cs ih =>
    cases rem with
    | nil => simp [CumOk] at h
    | cons r rs =>
      simp only [CumOk] at h
      by_cases hcs : cs = []
      · subst hcs
        cases rs with
        | nil => simp [lastCum, h.1]
        | cons => simp [CumOk] at h
      · have := ih h.2 hcs
        have e : lastCum (c :: cs) = lastCum cs := by
          cases cs with
          | nil => exact absurd rfl hcs
          | cons d ds => rfl
        rw [e, this, List.sum_cons]
        omega

theorem weylPick_after {val : U64} {nz : Int} (hnz : 0 < nz) {acc : Nat} {cum : List (Int × U64)} {rem : List Nat}
    (h : CumOk (acc + 1) cum rem) :
    (weylPick val nz cum).1 = nz ∧ CumOk acc (weylPick val nz cum).2 rem := by
  induction cum generalizing acc rem with
  | nil => cases rem with
    | nil => exact ⟨rfl, trivial⟩
    | cons => simp [CumOk] at h
  | cons c cs ih =>
    obtain ⟨b, c⟩ := c
    cases rem with
    | nil => simp [CumOk] at h
    | cons r rs =>
      simp only [CumOk] at h
      have e : (if val < c ∧ nz = 0 then b else nz) = nz := if_neg (by omega)
      simp only [weylPick, e, if_pos hnz, CumOk]
      have := ih (acc := acc + r) (rem := rs) (by rw [show acc + r + 1 = acc + 1 + r by omega]; exact h.2)
      refine ⟨this.1, ?_, this.2⟩
      rw [BitVec.toNat_sub_of_le (BitVec.le_def.mpr (by rw [h.1]; show 1 ≤ _; omega)), h.1]
      show acc + 1 + r - 1 = _
      omega

/-- A value below the total selects a bit count with something left and takes one away from it. -/
theorem weylPick_spec {val : U64} {acc : Nat} {cum : List (Int × U64)} {rem : List Nat}
    (hpos : ∀ x, x ∈ cum.map Prod.fst → 0 < x) (h : CumOk acc cum rem) (h1 : acc ≤ val.toNat)
    (h2 : val.toNat < acc + rem.sum) :
    ∃ j, ∃ hj : j < rem.length, ∃ hj' : j < cum.length, (weylPick val 0 cum).1 = cum[j].1 ∧ 0 < rem[j] ∧
      CumOk acc (weylPick val 0 cum).2 (rem.set j (rem[j] - 1)) := by
  induction cum generalizing acc rem with
  | nil => cases rem with
    | nil => simp at h2; omega
    | cons => simp [CumOk] at h
  | cons c cs ih =>
    obtain ⟨b, c⟩ := c
    cases rem with
    | nil => simp [CumOk] at h
    | cons r rs =>
      simp only [CumOk] at h
      by_cases hv : val < c
      · have hb : 0 < b := hpos b (by simp)
        have hr : 0 < r := by have := BitVec.lt_def.mp hv; omega
        refine ⟨0, by simp, by simp, ?_⟩
        have := weylPick_after (val := val) hb (acc := acc + (r - 1)) (cum := cs) (rem := rs)
          (by rw [show acc + (r - 1) + 1 = acc + r by omega]; exact h.2)
        simp only [weylPick, and_true, if_pos hv, if_pos hb]
        refine ⟨this.1, hr, ?_⟩
        simp only [List.getElem_cons_zero, List.set_cons_zero, CumOk]
        refine ⟨?_, this.2⟩
        rw [BitVec.toNat_sub_of_le (BitVec.le_def.mpr (by rw [h.1]; show 1 ≤ _; omega)), h.1]
        show acc + r - 1 = _
        omega
      · have hv' : acc + r ≤ val.toNat := by
          have := mt BitVec.lt_def.mpr hv; omega
        obtain ⟨j, hj, hj', i1, i2, i3⟩ := ih (fun x hx => hpos x (by simp only [List.map_cons, List.mem_cons]; exact Or.inr hx))
          h.2 hv' (by rw [List.sum_cons] at h2; omega)
        refine ⟨j + 1, by simp only [List.length_cons]; omega, by simp only [List.length_cons]; omega, ?_⟩
        simp only [weylPick, and_true, if_neg hv, show ¬ ((0 : Int) > 0) by decide, if_false]
        refine ⟨i1, i2, ?_⟩
        simp only [List.getElem_cons_succ, List.set_cons_succ, CumOk]
        exact ⟨h.1, i3⟩

/-- Numbers of values still available initially. -/
def weylRem : Nat → Nat → List Nat
  | _, 0 => []
  | b, nb + 1 => (choosek (BitVec.ofNat 64 b)).toNat :: weylRem (b + 1) nb

theorem weylRem_length (b nb : Nat) : (weylRem b nb).length = nb := by
  induction nb generalizing b with
  | zero => rfl
  | succ nb ih => simp [weylRem, ih]

theorem weylRem_getElem (b nb j : Nat) (h : j < (weylRem b nb).length) :
    (weylRem b nb)[j] = (choosek (BitVec.ofNat 64 (b + j))).toNat := by
  induction nb generalizing b j with
  | zero => simp [weylRem] at h
  | succ nb ih =>
    cases j with
    | zero => rfl
    | succ j =>
      simp only [weylRem, List.getElem_cons_succ]
      rw [ih, show b + 1 + j = b + (j + 1) by omega]

theorem weylRem_sum (b nb : Nat) : (weylRem b nb).sum = weylAvailable b nb := by
  induction nb generalizing b with
  | zero => rfl
  | succ nb ih => simp [weylRem, weylAvailable, ih]

theorem weylCum_getElem (b nb : Nat) (acc : U64) (j : Nat) (h : j < (weylCum b nb acc).length) :
    (weylCum b nb acc)[j].1 = ((b + j : Nat) : Int) := by
  induction nb generalizing b acc j with
  | zero => simp [weylCum] at h
  | succ nb ih =>
    cases j with
    | zero => rfl
    | succ j =>
      simp only [weylCum, List.getElem_cons_succ]
      rw [ih, show b + 1 + j = b + (j + 1) by omega]

theorem weylCum_ok (b nb : Nat) (acc : U64) (h : acc.toNat + weylAvailable b nb < 2 ^ 64) :
    CumOk acc.toNat (weylCum b nb acc) (weylRem b nb) := by
  induction nb generalizing b acc with
  | zero => trivial
  | succ nb ih =>
    simp only [weylCum, weylRem, CumOk]
    simp only [weylAvailable] at h
    have e : (choosek (BitVec.ofNat 64 b) + acc).toNat = acc.toNat + (choosek (BitVec.ofNat 64 b)).toNat := by
      rw [BitVec.toNat_add, Nat.mod_eq_of_lt (by omega)]
      omega
    refine ⟨e, ?_⟩
    rw [← e]
    exact ih _ _ (by omega)

/-- The number of one bits. -/
def popc (x : U64) : Nat := (oneBits x.toNat).card

/-- State of the main loop when the sampler has stayed below its end point: `rem` counts what is left. -/
structure WeylInv (lo nb : Nat) (cum : List (Int × U64)) (rem : List Nat) (values : List U64) : Prop where
  ok : CumOk 0 cum rem
  len : rem.length = nb
  bits : ∀ j, ∀ hj : j < cum.length, cum[j].1 = ((lo + j : Nat) : Int)
  nodup : values.Nodup
  mem : ∀ x, x ∈ values → x.toNat ∈ weylSet lo (lo + nb - 1)
  count : ∀ j, ∀ hj : j < rem.length,
    values.countP (fun x => popc x = lo + j) + rem[j] = (choosek (BitVec.ofNat 64 (lo + j))).toNat

theorem weylInv_init (lo nb : Nat) (h1 : 1 ≤ lo) (h2 : lo + nb ≤ 65) :
    WeylInv lo nb (weylCum lo nb 0) (weylRem lo nb) [] where
  ok := weylCum_ok lo nb 0 (by have := weylAvailable_lt lo nb h1 h2; simpa using this)
  len := weylRem_length lo nb
  bits := weylCum_getElem lo nb 0
  nodup := List.nodup_nil
  mem := by simp
  count := fun j hj => by rw [weylRem_getElem]; simp

theorem fst_getElem {cum cum' : List (Int × U64)} (h : cum'.map Prod.fst = cum.map Prod.fst) (j : Nat)
    (hj : j < cum'.length) (hj' : j < cum.length) : cum'[j].1 = cum[j].1 := by
  have := List.getElem_of_eq h (i := j) (by simpa using hj)
  simpa using this

theorem list_sum_set (l : List Nat) (j : Nat) (hj : j < l.length) (h0 : 0 < l[j]) :
    (l.set j (l[j] - 1)).sum + 1 = l.sum := by
  induction l generalizing j with
  | nil => simp at hj
  | cons a l ih =>
    cases j with
    | zero => simp only [List.getElem_cons_zero] at h0 ⊢; simp only [List.set_cons_zero, List.sum_cons]; omega
    | succ j =>
      simp only [List.getElem_cons_succ] at h0 ⊢
      simp only [List.set_cons_succ, List.sum_cons]
      have := ih j (by simpa using hj) h0
      omega

/-- One turn of the main loop with a value below the total: the bit count selected, and the invariant afterwards for
whatever fresh value with that bit count is produced. -/
theorem WeylInv.turn {lo nb : Nat} {cum : List (Int × U64)} {rem : List Nat} {values : List U64}
    (h : WeylInv lo nb cum rem values) (hlo : 1 ≤ lo) {val : U64} (hv : val.toNat < rem.sum) :
    ∃ j, j < nb ∧ (weylPick val 0 cum).1 = ((lo + j : Nat) : Int) ∧
      values.countP (fun x => popc x = lo + j) < (choosek (BitVec.ofNat 64 (lo + j))).toNat ∧
      ∃ rem', rem'.sum + 1 = rem.sum ∧ ∀ c : U64, c ∉ values → c.toNat % 2 = 1 → popc c = lo + j →
        WeylInv lo nb (weylPick val 0 cum).2 rem' (c :: values) := by
  have hpos : ∀ x, x ∈ cum.map Prod.fst → 0 < x := by
    intro x hx
    obtain ⟨y, hy, rfl⟩ := List.mem_map.mp hx
    obtain ⟨j, hj, rfl⟩ := List.getElem_of_mem hy
    rw [h.bits j hj]
    omega
  obtain ⟨j, hj, hj', p1, p2, p3⟩ := weylPick_spec (val := val) hpos h.ok (Nat.zero_le _) (by omega)
  have hc := h.count j hj
  refine ⟨j, by rw [← h.len]; exact hj, by rw [p1, h.bits], by omega, rem.set j (rem[j] - 1), list_sum_set rem j hj p2, ?_⟩
  intro c hcv hodd hpc
  have hjn : j < nb := by rw [← h.len]; exact hj
  refine ⟨p3, by rw [List.length_set, h.len], ?_, List.nodup_cons.mpr ⟨hcv, h.nodup⟩, ?_, ?_⟩
  · intro i hi
    have hl : (weylPick val 0 cum).2.length = cum.length := by
      have := congrArg List.length (weylPick_fst val 0 cum)
      simpa using this
    rw [fst_getElem (weylPick_fst val 0 cum) i hi (by omega)]
    exact h.bits i (by omega)
  · intro x hx
    rcases List.mem_cons.mp hx with rfl | hx
    · rw [mem_weylSet]
      unfold popc at hpc
      exact ⟨x.isLt, hodd, by omega, by omega⟩
    · exact h.mem x hx
  · intro i hi
    rw [List.length_set] at hi
    rw [List.getElem_set, List.countP_cons]
    have := h.count i hi
    by_cases hij : j = i
    · subst hij
      simp only [hpc, decide_true, if_true]
      omega
    · have : ¬ popc c = lo + i := by omega
      simp only [this, decide_false, hij, if_false, Bool.false_eq_true]
      omega

theorem weylLoop_inner {words : Nat → U64} {pick : Nat → U64 → U64} {fuel lo nb : Nat} (hlo : 1 ≤ lo) (hhi : lo + nb ≤ 65)
    (hpick : ∀ i t, 0 < t → pick i t < t) (k : Nat) {i p : Nat} {cum : List (Int × U64)} {rem : List Nat}
    {values l : List U64} (hnb : 0 < nb) (hinv : WeylInv lo nb cum rem values) (hk : k ≤ rem.sum)
    (h : weylLoop words pick fuel k i p (lastCum cum) cum values = some l) :
    ∀ x, x ∈ l → x.toNat ∈ weylSet lo (lo + nb - 1) := by
  induction k generalizing i p cum rem values with
  | zero =>
    simp only [weylLoop, Option.some.injEq] at h
    subst h
    exact fun x hx => hinv.mem x (List.mem_reverse.mp hx)
  | succ k ih =>
    have hne : cum ≠ [] := by
      intro hc
      have := hinv.ok.length
      rw [hc, hinv.len] at this
      simp at this
      omega
    have hlast := hinv.ok.last hne
    have hv : (pick i (lastCum cum)).toNat < rem.sum := by
      have := BitVec.lt_def.mp (hpick i (lastCum cum) (BitVec.lt_def.mpr (by rw [hlast]; show 0 < _; omega)))
      omega
    obtain ⟨j, hj, t1, -, rem', t3, t4⟩ := hinv.turn hlo hv
    rw [weylLoop] at h
    simp only [Option.bind_eq_bind] at h
    generalize weylPick (pick i (lastCum cum)) 0 cum = r at h t1 t4
    cases hg : weylFresh words fuel r.1 values fuel p with
    | none => rw [hg] at h; simp at h
    | some c =>
      rw [hg] at h
      simp only [Option.bind_some] at h
      obtain ⟨g1, q, g2⟩ := weylFresh_spec fuel hg
      obtain ⟨g3, g4⟩ := generateBits_spec g2 (by omega) (by omega)
      have hp : popc c.1 = lo + j := by unfold popc; omega
      exact ih (t4 c.1 g1 g3 hp) (by omega) h

/-- C41, the values, when the internal integer sampler never returns its upper end point: `n` pairwise distinct odd
integers with between `min_bits` and `max_bits` one bits. Missing: the end point, which `endpoint=True` includes
(`not_C41_bits`). -/
theorem C41_values_partial (words : Nat → U64) (pick : Nat → U64 → U64) (hpick : ∀ i t, 0 < t → pick i t < t) (fuel : Nat)
    (n maxBits minBits : Int) (l : List U64) (h : weylIncrements words pick fuel n maxBits (some minBits) = .values l) :
    (l.length : Int) = n ∧ l.Nodup ∧ ∀ x, x ∈ l → x.toNat ∈ weylSet minBits.toNat maxBits.toNat := by
  obtain ⟨a, b, -⟩ := C41_values_any_partial words pick fuel n maxBits minBits l h
  refine ⟨a, b, ?_⟩
  obtain ⟨⟨h1, h2, h3, h4⟩, h5, h6⟩ := weylIncrements_accepted (by rw [h]; simp)
  rw [h6] at h
  split at h
  · rename_i l' hl
    simp only [WeylOut.values.injEq] at h
    subst h
    have := weylLoop_inner (lo := minBits.toNat) (nb := (maxBits - minBits + 1).toNat) (by omega) (by omega) hpick n.toNat
      (by omega) (weylInv_init _ _ (by omega) (by omega)) (by rw [weylRem_sum]; omega) hl
    rw [show minBits.toNat + (maxBits - minBits + 1).toNat - 1 = maxBits.toNat by omega] at this
    exact this
  · simp at h

/-! Progress. -/

theorem genLoop_mono {words : Nat → U64} {toFill : Int} {fuel : Nat} {s s' : GenSt} (h : genLoop words toFill fuel s = some s')
    (m : Nat) : genLoop words toFill (fuel + m) s = some s' := by
  induction fuel generalizing s with
  | zero =>
    rw [genLoop] at h
    split at h
    · simp at h
    · rename_i hn
      cases m with
      | zero => rw [genLoop, if_neg hn]; exact h
      | succ m => rw [Nat.zero_add, genLoop, if_neg hn]; exact h
  | succ fuel ih =>
    rw [show fuel + 1 + m = (fuel + m) + 1 by omega, genLoop]
    rw [genLoop] at h
    split at h
    · rename_i hlt; rw [if_pos hlt]; exact ih h
    · rename_i hn; rw [if_neg hn]; exact h

theorem generateBits_mono {words : Nat → U64} {fuel : Nat} {bits : Int} {p : Nat} {r : U64 × Nat}
    (h : generateBits words fuel bits p = some r) (m : Nat) : generateBits words (fuel + m) bits p = some r := by
  unfold generateBits at h ⊢
  simp only [Option.bind_eq_bind] at h ⊢
  generalize (if bits ≤ 32 then bits else 64 - bits + 1) = toFill at h ⊢
  cases hl : genLoop words toFill fuel { candidate := 1, filled := 1, buffer := 0, cnt := 0, p := p } with
  | none => rw [hl] at h; simp at h
  | some s' => rw [hl] at h; rw [genLoop_mono hl]; exact h

theorem weylFresh_mono {words : Nat → U64} {g fuel : Nat} {bits : Int} {values : List U64} {p : Nat} {r : U64 × Nat}
    (h : weylFresh words g bits values fuel p = some r) (m m' : Nat) :
    weylFresh words (g + m) bits values (fuel + m') p = some r := by
  induction fuel generalizing p with
  | zero => simp [weylFresh] at h
  | succ fuel ih =>
    rw [show fuel + 1 + m' = (fuel + m') + 1 by omega, weylFresh]
    rw [weylFresh] at h
    simp only [Option.bind_eq_bind] at h ⊢
    cases hg : generateBits words g bits p with
    | none => rw [hg] at h; simp at h
    | some q =>
      rw [hg] at h
      rw [generateBits_mono hg]
      simp only [Option.bind_some] at h ⊢
      split at h
      · rename_i hm; rw [if_pos hm]; exact ih h
      · rename_i hm; rw [if_neg hm]; exact h

theorem weylLoop_mono {words : Nat → U64} {pick : Nat → U64 → U64} {fuel : Nat} (k : Nat) {i p : Nat} {total : U64}
    {cum : List (Int × U64)} {values l : List U64} (h : weylLoop words pick fuel k i p total cum values = some l) (m : Nat) :
    weylLoop words pick (fuel + m) k i p total cum values = some l := by
  induction k generalizing i p total cum values with
  | zero => exact h
  | succ k ih =>
    rw [weylLoop] at h ⊢
    simp only [Option.bind_eq_bind] at h ⊢
    generalize weylPick (pick i total) 0 cum = r at h ⊢
    cases hg : weylFresh words fuel r.1 values fuel p with
    | none => rw [hg] at h; simp at h
    | some c =>
      rw [hg] at h
      rw [weylFresh_mono hg]
      exact ih h

/-! A word whose eight bytes are all `k`, and what it does to `generate_bits`. -/

def repByte (k : Nat) : U64 := BitVec.ofNat 64 (k * 0x0101010101010101)

theorem repByte_read : ∀ k, k < 64 → ∀ j, j < 8 → ((repByte k >>> (8 * j)) &&& 0x3f).toNat = k := by
  decide +kernel

/-- The remaining bytes of the word find their bit already set. -/
theorem genLoop_skip (words : Nat → U64) (toFill filled : Int) (cand : U64) (k p fuel : Nat) (hk : k < 64)
    (hin : k ∈ oneBits cand.toNat) (hlt : filled < toFill) (j : Nat) (hj : j ≤ 7) :
    genLoop words toFill (fuel + j)
        { candidate := cand, filled := filled, buffer := repByte k >>> (8 * (8 - j)), cnt := j, p := p } =
      genLoop words toFill fuel { candidate := cand, filled := filled, buffer := repByte k >>> 64, cnt := 0, p := p } := by
  induction j with
  | zero => rfl
  | succ j ih =>
    have hb := ih (by omega)
    rw [← hb, ← Nat.add_assoc, genLoop, if_pos hlt]
    congr 1
    unfold genStep
    simp only [show ¬ (j + 1 = 0) by omega, if_false]
    have hr := repByte_read k hk (8 - (j + 1)) (by omega)
    rw [hr, if_pos ((testBit_step cand k hk).mpr hin)]
    have e : repByte k >>> (8 * (8 - (j + 1))) >>> 8 = repByte k >>> (8 * (8 - j)) := by
      rw [← BitVec.shiftRight_add]
      congr 1
      omega
    simp only [Nat.add_sub_cancel]
    congr 1

/-- A list of new bits can be set by a suitable block of words. -/
theorem genLoop_reach (words : Nat → U64) (toFill : Int) (ks : List Nat) (filled : Int) (cand b : U64) (p : Nat)
    (hks : ∀ k, k ∈ ks → k < 64 ∧ k ∉ oneBits cand.toNat) (hnd : ks.Nodup) (hl : filled + ks.length = toFill)
    (hw : ∀ j, ∀ hj : j < ks.length, words (p + j) = repByte ks[j]) :
    ∃ fuel s', genLoop words toFill fuel { candidate := cand, filled := filled, buffer := b, cnt := 0, p := p } = some s' ∧
      s'.p = p + ks.length ∧ oneBits s'.candidate.toNat = oneBits cand.toNat ∪ ks.toFinset := by
  induction ks generalizing filled cand b p with
  | nil =>
    refine ⟨0, _, by rw [genLoop, if_neg (by simp at hl; simp only; omega)], rfl, by simp⟩
  | cons k ks ih =>
    obtain ⟨hk, hkn⟩ := hks k (by simp)
    rw [List.nodup_cons] at hnd
    simp only [List.length_cons, Nat.cast_add, Nat.cast_one] at hl
    have hset := oneBits_setBit cand hk
    have hw0 : words p = repByte k := hw 0 (by simp)
    have hstep : genStep words { candidate := cand, filled := filled, buffer := b, cnt := 0, p := p } =
        { candidate := cand ||| (1 : U64).shiftLeft k, filled := filled + 1, buffer := repByte k >>> 8, cnt := 7,
          p := p + 1 } := by
      unfold genStep
      simp only [if_true, hw0]
      have hr := repByte_read k hk 0 (by omega)
      rw [show repByte k >>> (8 * 0) = repByte k from BitVec.ushiftRight_zero _] at hr
      rw [hr, if_neg (fun hc => hkn ((testBit_step cand k hk).mp hc))]
    by_cases hz : ks = []
    · subst hz
      refine ⟨1, GenSt.mk (cand ||| (1 : U64).shiftLeft k) (filled + 1) (repByte k >>> 8) 7 (p + 1), ?_, ?_, ?_⟩
      · rw [genLoop, if_pos (by simp only; simp at hl; omega), hstep, genLoop, if_neg (by simp only; simp at hl; omega)]
      · rfl
      · rw [hset]; ext x; simp
    · have hpos : 0 < ks.length := List.length_pos_iff.mpr hz
      obtain ⟨fuel, s', i1, i2, i3⟩ := ih (filled + 1) (cand ||| (1 : U64).shiftLeft k) (repByte k >>> 64) (p + 1)
        (fun x hx => by
          obtain ⟨h1, h2⟩ := hks x (by simp [hx])
          refine ⟨h1, ?_⟩
          rw [hset, Finset.mem_insert]
          rintro (rfl | h)
          · exact hnd.1 hx
          · exact h2 h)
        hnd.2 (by omega)
        (fun j hj => by
          have := hw (j + 1) (by simp; omega)
          rw [show p + 1 + j = p + (j + 1) by omega, this]; rfl)
      have hskip := genLoop_skip words toFill (filled + 1) (cand ||| (1 : U64).shiftLeft k) k (p + 1) fuel hk
        (by rw [hset]; exact Finset.mem_insert_self _ _) (by omega) 7 (by omega)
      refine ⟨fuel + 7 + 1, s', ?_, ?_, ?_⟩
      · rw [genLoop, if_pos (by simp only; omega), hstep, ← i1, ← hskip]
      · rw [i2, List.length_cons]; omega
      · rw [i3, hset]; ext x; simp

/-- Every odd number with the right number of one bits is produced by a suitable block of words. -/
theorem generateBits_reach (p : Nat) (bits : Nat) (h1 : 1 ≤ bits) (h2 : bits ≤ 64) (x : U64)
    (hx : x.toNat ∈ weylSet bits bits) :
    ∃ (m : Nat) (blk : Nat → U64), ∀ words : Nat → U64, (∀ q, p ≤ q → q < p + m → words q = blk q) →
      ∃ fuel, generateBits words fuel bits p = some (x, p + m) := by
  rw [mem_weylSet] at hx
  obtain ⟨-, hodd, hc1, hc2⟩ := hx
  have h0 := (zero_mem_oneBits _).mpr hodd
  have hcard : (oneBits x.toNat).card = bits := by omega
  -- the bits to set
  obtain ⟨S, hS64, hS0, hScard, hSout⟩ : ∃ S : Finset Nat, (∀ k, k ∈ S → k < 64) ∧ 0 ∉ S ∧
      (1 + (S.card : Int) = if (bits : Int) ≤ 32 then (bits : Int) else 64 - bits + 1) ∧
      ∀ c : U64, oneBits c.toNat = insert 0 S → (if ¬ (bits : Int) ≤ 32 then ~~~ c ||| 1 else c) = x := by
    by_cases hb : (bits : Int) ≤ 32
    · refine ⟨(oneBits x.toNat).erase 0, fun k hk => ?_, by simp, ?_, fun c hc => ?_⟩
      · exact Finset.mem_range.mp (oneBits_subset _ (Finset.mem_of_mem_erase hk))
      · rw [Finset.card_erase_of_mem h0, if_pos hb]; omega
      · rw [if_neg (by simpa using hb)]
        rw [Finset.insert_erase h0] at hc
        exact BitVec.eq_of_toNat_eq (oneBits_inj c.isLt x.isLt hc)
    · refine ⟨Finset.range 64 \ oneBits x.toNat, fun k hk => ?_, by simp [h0], ?_, fun c hc => ?_⟩
      · exact Finset.mem_range.mp (Finset.mem_sdiff.mp hk).1
      · rw [Finset.card_sdiff_of_subset (oneBits_subset _), Finset.card_range, if_neg hb, hcard]; omega
      · rw [if_pos hb]
        apply BitVec.eq_of_toNat_eq
        apply oneBits_inj (BitVec.isLt _) x.isLt
        rw [oneBits_invert, hc]
        ext i
        have hsub := oneBits_subset x.toNat
        simp only [Finset.mem_insert, Finset.mem_sdiff, not_or, not_and, not_not]
        constructor
        · rintro (rfl | ⟨a, -, b⟩)
          · exact h0
          · exact b a
        · intro hi
          by_cases hi0 : i = 0
          · exact Or.inl hi0
          · exact Or.inr ⟨hsub hi, hi0, fun _ => hi⟩
  have hlen : S.toList.length = S.card := Finset.length_toList S
  have key : ∀ words : Nat → U64, (∀ j, ∀ hj : j < S.toList.length, words (p + j) = repByte S.toList[j]) →
      ∃ fuel, generateBits words fuel bits p = some (x, p + S.toList.length) := by
    intro words hw
    obtain ⟨fuel, s', g1, g2, g3⟩ := genLoop_reach words (if (bits : Int) ≤ 32 then (bits : Int) else 64 - bits + 1) S.toList 1
      1 0 p (fun k hk => by
        rw [Finset.mem_toList] at hk
        refine ⟨hS64 k hk, ?_⟩
        rw [oneBits_one, Finset.mem_singleton]
        rintro rfl
        exact hS0 hk) (Finset.nodup_toList S) (by rw [hlen]; exact hScard) hw
    refine ⟨fuel, ?_⟩
    unfold generateBits
    simp only [Option.bind_eq_bind]
    rw [g1]
    simp only [Option.bind_some, Option.pure_def, Option.some.injEq]
    rw [hSout s'.candidate (by rw [g3, oneBits_one, Finset.toList_toFinset]; rfl), g2]
  let blk : Nat → U64 := fun q => if h : q - p < S.toList.length then repByte S.toList[q - p] else 0
  have hblk : ∀ j, ∀ hj : j < S.toList.length, blk (p + j) = repByte S.toList[j] := by
    intro j hj
    simp only [blk, Nat.add_sub_cancel_left, hj, dif_pos]
  refine ⟨S.toList.length, blk, fun words hw => key words fun j hj => ?_⟩
  rw [hw (p + j) (by omega) (by omega), hblk j hj]

/-- With something left of the selected bit count there is a number that has not been used. -/
theorem exists_fresh (b : Nat) (h1 : 1 ≤ b) (h2 : b ≤ 64) (values : List U64)
    (h : values.countP (fun x => popc x = b) < (choosek (BitVec.ofNat 64 b)).toNat) :
    ∃ x : U64, x ∉ values ∧ x.toNat ∈ weylSet b b := by
  by_contra hc
  have hsub : weylSet b b ⊆ ((values.filter (fun x => popc x = b)).map BitVec.toNat).toFinset := by
    intro y hy
    have hy' := (mem_weylSet _ _ _).mp hy
    have hyx : (BitVec.ofNat 64 y).toNat = y := by rw [BitVec.toNat_ofNat, Nat.mod_eq_of_lt hy'.1]
    rw [List.mem_toFinset, List.mem_map]
    refine ⟨BitVec.ofNat 64 y, List.mem_filter.mpr ⟨?_, ?_⟩, hyx⟩
    · by_contra hn
      exact hc ⟨_, hn, by rw [hyx]; exact hy⟩
    · unfold popc
      rw [hyx]
      exact decide_eq_true (by omega)
  have hle := Finset.card_le_card hsub
  have hle2 := List.toFinset_card_le ((values.filter (fun x => popc x = b)).map BitVec.toNat)
  rw [List.length_map, ← List.countP_eq_length_filter] at hle2
  obtain ⟨i, rfl⟩ : ∃ j, b = j + 1 := ⟨b - 1, by omega⟩
  have := (choosek_table i (by omega)).2.1
  rw [card_weylSet_one] at hle
  omega

theorem weylLoop_live {pick : Nat → U64 → U64} {lo nb : Nat} (hlo : 1 ≤ lo) (hhi : lo + nb ≤ 65)
    (hpick : ∀ i t, 0 < t → pick i t < t) (hnb : 0 < nb) (k : Nat) (i p : Nat) (cum : List (Int × U64)) (rem : List Nat)
    (values : List U64) (hinv : WeylInv lo nb cum rem values) (hk : k ≤ rem.sum) :
    ∃ blk : Nat → U64, ∀ words : Nat → U64, (∀ q, p ≤ q → words q = blk q) →
      ∃ fuel l, weylLoop words pick fuel k i p (lastCum cum) cum values = some l := by
  induction k generalizing i p cum rem values with
  | zero => exact ⟨fun _ => 0, fun _ _ => ⟨0, _, rfl⟩⟩
  | succ k ih =>
    have hne : cum ≠ [] := by
      intro hc
      have := hinv.ok.length
      rw [hc, hinv.len] at this
      simp at this
      omega
    have hlast := hinv.ok.last hne
    have hv : (pick i (lastCum cum)).toNat < rem.sum := by
      have := BitVec.lt_def.mp (hpick i (lastCum cum) (BitVec.lt_def.mpr (by rw [hlast]; show 0 < _; omega)))
      omega
    obtain ⟨j, hj, t1, t2, rem', t3, t4⟩ := hinv.turn hlo hv
    obtain ⟨x, hxn, hxm⟩ := exists_fresh (lo + j) (by omega) (by omega) values t2
    obtain ⟨m, blk, hblk⟩ := generateBits_reach p (lo + j) (by omega) (by omega) x hxm
    have hx := (mem_weylSet _ _ _).mp hxm
    obtain ⟨blk', hblk'⟩ := ih (i + 1) (p + m) _ _ _ (t4 x hxn hx.2.1 (by unfold popc; omega)) (by omega)
    refine ⟨fun q => if q < p + m then blk q else blk' q, fun words hw => ?_⟩
    obtain ⟨f1, hf1⟩ := hblk words (fun q h1 h2 => by rw [hw q h1]; exact if_pos h2)
    obtain ⟨f2, l, hf2⟩ := hblk' words (fun q h1 => by rw [hw q (by omega)]; exact if_neg (by omega))
    refine ⟨(f1 + 1) + f2, l, ?_⟩
    rw [weylLoop]
    simp only [Option.bind_eq_bind]
    rw [t1]
    have hfr : weylFresh words f1 ((lo + j : Nat) : Int) values 1 p = some (x, p + m) := by
      rw [weylFresh, hf1]
      simp only [Option.bind_eq_bind, Option.bind_some, if_neg hxn]
      rfl
    have := weylFresh_mono hfr (1 + f2) (f1 + f2)
    rw [show f1 + (1 + f2) = f1 + 1 + f2 by omega, show 1 + (f1 + f2) = f1 + 1 + f2 by omega] at this
    rw [this]
    simp only [Option.bind_some]
    have := weylLoop_mono k hf2 (f1 + 1)
    rw [show f2 + (f1 + 1) = f1 + 1 + f2 by omega] at this
    exact this

/-- C41, no dead end: for every accepted request and every sampler that stays below its end point there is a stream of
words on which the method returns. -/
theorem C41_live_partial (pick : Nat → U64 → U64) (hpick : ∀ i t, 0 < t → pick i t < t) (n maxBits minBits : Int)
    (hargs : WeylArgs n maxBits minBits)
    (hacc : weylIncrements (fun _ => 0) pick 0 n maxBits (some minBits) ≠ .refused) :
    ∃ words fuel l, weylIncrements words pick fuel n maxBits (some minBits) = .values l := by
  have hn := mt (weylIncrements_refused_iff (fun _ => 0) pick 0 hargs).mpr hacc
  obtain ⟨h1, h2, h3, h4⟩ := hargs
  obtain ⟨blk, hblk⟩ := weylLoop_live (lo := minBits.toNat) (nb := (maxBits - minBits + 1).toNat) (by omega) (by omega) hpick
    (by omega) n.toNat 0 0 _ _ _ (weylInv_init _ _ (by omega) (by omega)) (by rw [weylRem_sum]; omega)
  obtain ⟨fuel, l, hl⟩ := hblk blk (fun _ _ => rfl)
  have hacc' : weylIncrements blk pick fuel n maxBits (some minBits) ≠ .refused := by
    rw [Ne, weylIncrements_refused_iff blk pick fuel ⟨h1, h2, h3, h4⟩]; exact hn
  refine ⟨blk, fuel, l, ?_⟩
  rw [(weylIncrements_accepted hacc').2.2, hl]

/-- Three numbers with one or two one bits, the sampler returning the largest value below the total resp. 0. -/
example : (∀ (i : Nat) (t : U64), 0 < t → (fun _ t => t - 1 : Nat → U64 → U64) i t < t) ∧ WeylArgs 3 2 1 ∧
    weylIncrements (fun i => repByte (i + 1)) (fun _ t => t - 1) 2 3 2 (some 1) = .values [3, 5, 9] ∧
    weylIncrements (fun i => repByte (i + 1)) (fun _ _ => 0) 2 3 2 (some 1) = .values [1, 3, 5] := by
  refine ⟨fun i t h => ?_, by unfold WeylArgs; omega, by decide +kernel, by decide +kernel⟩
  have := BitVec.lt_def.mp h
  rw [BitVec.lt_def, BitVec.toNat_sub_of_le (BitVec.le_def.mpr (by exact this))]
  show t.toNat - 1 < t.toNat
  have : 0 < t.toNat := this
  omega

/-- C41, the bit counts, fails: `integers(0, total, endpoint=True)` may return `total`, no bit count is selected and the
value 1 is returned whatever `min_bits` is. With `min_bits = max_bits = 64` there is one candidate, `total = 1`, and the
sampler returns 1 for half of its inputs. -/
theorem not_C41_bits : ¬ ∀ (words : Nat → U64) (pick : Nat → U64 → U64), (∀ i t, pick i t ≤ t) →
    ∀ (fuel : Nat) (n maxBits minBits : Int) (l : List U64),
      weylIncrements words pick fuel n maxBits (some minBits) = .values l →
      ∀ x, x ∈ l → x.toNat ∈ weylSet minBits.toNat maxBits.toNat := by
  intro h
  have := h (fun _ => 0) (fun _ t => t) (fun _ _ => BitVec.le_refl _) 1 1 64 64 [1] (by decide +kernel) 1 (by simp)
  rw [mem_weylSet] at this
  have hc : (oneBits (1 : U64).toNat).card = 1 := by rw [oneBits_one]; rfl
  rw [hc] at this
  exact absurd this.2.2.1 (by decide)

theorem generateBits_zero (words : Nat → U64) (fuel p : Nat) : generateBits words fuel 0 p = some (1, p) := by
  unfold generateBits
  cases fuel <;> rfl

theorem weylFresh_stuck (words : Nat → U64) (g : Nat) (values : List U64) (h : (1 : U64) ∈ values) (fuel p : Nat) :
    weylFresh words g 0 values fuel p = none := by
  induction fuel with
  | zero => rfl
  | succ fuel ih =>
    rw [weylFresh, generateBits_zero]
    simp only [Option.bind_eq_bind, Option.bind_some, if_pos h]
    exact ih

/-- C41, returning, fails: with `weyl_increments(2, max_bits=2, min_bits=1)`, once 1 has been produced and the sampler
returns its end point, the method loops forever on every stream of words. -/
theorem not_C41_returns : ¬ ∀ (pick : Nat → U64 → U64), (∀ i t, pick i t ≤ t) →
    ∃ words fuel l, weylIncrements words pick fuel 2 2 (some 1) = .values l := by
  intro h
  obtain ⟨words, fuel, l, hl⟩ := h (fun i t => if i = 0 then 0 else t) (fun i t => by
    split
    · exact BitVec.le_def.mpr (Nat.zero_le _)
    · exact BitVec.le_refl _)
  rw [(weylIncrements_accepted (by rw [hl]; simp)).2.2] at hl
  have hcum : weylCum (1 : Int).toNat ((2 : Int) - 1 + 1).toNat 0 = [(1, 1), (2, 64)] := by decide +kernel
  rw [hcum, show (2 : Int).toNat = 1 + 1 from rfl, weylLoop] at hl
  have hp : weylPick 0 0 [(1, 1), (2, 64)] = (1, [(1, 0), (2, 63)]) := by decide +kernel
  simp only [if_true, hp, Option.bind_eq_bind] at hl
  cases hf : weylFresh words fuel 1 [] fuel 0 with
  | none => rw [hf] at hl; simp at hl
  | some c =>
    rw [hf] at hl
    obtain ⟨-, q, g2⟩ := weylFresh_spec fuel hf
    obtain ⟨g3, g4⟩ := generateBits_spec g2 (by decide) (by decide)
    have h1 : (oneBits c.1.toNat).card = 1 := by omega
    obtain ⟨a, ha⟩ := Finset.card_eq_one.mp h1
    have h0 := (zero_mem_oneBits _).mpr g3
    rw [ha, Finset.mem_singleton] at h0
    subst h0
    have hc1 : c.1 = 1 := by
      apply BitVec.eq_of_toNat_eq
      exact oneBits_inj c.1.isLt (by decide) (by rw [ha, oneBits_one])
    simp only [Option.bind_some, hc1] at hl
    rw [weylLoop] at hl
    have hp2 : weylPick (lastCum [(1, 0), (2, 63)]) 0 [(1, 0), (2, 63)] = (0, [(1, 0), (2, 63)]) := by decide +kernel
    simp only [show ¬ (0 + 1 : Nat) = 0 by decide, if_false, hp2, Option.bind_eq_bind, weylFresh_stuck words fuel [1] (by simp)] at hl
    simp at hl

end Verif
