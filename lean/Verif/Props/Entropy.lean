import Mathlib.Tactic.Linarith
import Verif.Model.Entropy
import Verif.Common.BitInj
import Verif.Common.Orbit
import Mathlib.Tactic.Ring

/-! C90: the entropy functions. -/

namespace Verif

/-! ## The hashes -/

theorem add_not_shl {w : Nat} (x : BitVec w) (k : Nat) : x + ~~~(x <<< k) = x * (1 - BitVec.twoPow w k) - 1 := by
  have e : (1#w) = 1 := rfl
  rw [BitVec.shiftLeft_eq_mul_twoPow, BitVec.not_eq_neg_add, e]
  ring

theorem add_not_shl_inj {w : Nat} {x y : BitVec w} {k : Nat} (ho : ((1 : BitVec w) - BitVec.twoPow w k).toNat % 2 = 1)
    (h : x + ~~~(x <<< k) = y + ~~~(y <<< k)) : x = y := by
  rw [add_not_shl, add_not_shl, sub_left_inj] at h
  exact mul_odd_inj' _ ho h

theorem not_add_shl_inj {w : Nat} {x y : BitVec w} {k : Nat} (ho : (BitVec.twoPow w k - (1 : BitVec w)).toNat % 2 = 1)
    (h : ~~~x + x <<< k = ~~~y + y <<< k) : x = y := by
  have e : ∀ x : BitVec w, ~~~x + x <<< k = x * (BitVec.twoPow w k - 1) - 1 := by
    intro x
    have e : (1#w) = 1 := rfl
    rw [BitVec.shiftLeft_eq_mul_twoPow, BitVec.not_eq_neg_add, e]
    ring
  rw [e, e, sub_left_inj] at h
  exact mul_odd_inj' _ ho h

theorem add_shl_inj {w : Nat} {x y : BitVec w} {k : Nat} (ho : ((1 : BitVec w) + BitVec.twoPow w k).toNat % 2 = 1)
    (h : x + x <<< k = y + y <<< k) : x = y := by
  have e : ∀ x : BitVec w, x + x <<< k = x * (1 + BitVec.twoPow w k) := by
    intro x
    rw [BitVec.shiftLeft_eq_mul_twoPow]
    ring
  rw [e, e] at h
  exact mul_odd_inj' _ ho h

theorem add_shl_shl_inj {w : Nat} {x y : BitVec w} {j k : Nat}
    (ho : ((1 : BitVec w) + BitVec.twoPow w j + BitVec.twoPow w k).toNat % 2 = 1)
    (h : x + x <<< j + x <<< k = y + y <<< j + y <<< k) : x = y := by
  have e : ∀ x : BitVec w, x + x <<< j + x <<< k = x * (1 + BitVec.twoPow w j + BitVec.twoPow w k) := by
    intro x
    rw [BitVec.shiftLeft_eq_mul_twoPow, BitVec.shiftLeft_eq_mul_twoPow]
    ring
  rw [e, e] at h
  exact mul_odd_inj' _ ho h

theorem entropyHash32_inj : Function.Injective entropyHash32 := fun _ _ h =>
  add_not_shl_inj (by decide) (xorshr_inj (by decide) (add_shl_inj (by decide) (xorshr_inj (by decide)
    (add_not_shl_inj (by decide) (xorshr_inj (by decide) h)))))

/-- C90: `entropy_hash_32` permutes the 32-bit words. -/
theorem C90_hash32 : Function.Bijective entropyHash32 := Finite.injective_iff_bijective.mp entropyHash32_inj

/-- C90: `entropy_hash_64` permutes the 64-bit words. -/
theorem C90_hash64 : Function.Bijective entropyHash64 :=
  Finite.injective_iff_bijective.mp fun _ _ h =>
    not_add_shl_inj (by decide) (xorshr_inj (by decide) (add_shl_shl_inj (by decide) (xorshr_inj (by decide)
      (add_shl_shl_inj (by decide) (xorshr_inj (by decide) (add_shl_inj (by decide) h))))))

/-- C90: two processes, or one process at two moments that differ in one of the clocks, never get the same fallback word. -/
theorem C90_fallback_distinct (pid pid' : U32) (t t' : Tick) :
    (pid ≠ pid' → entropyRandombytes pid t ≠ entropyRandombytes pid' t) ∧
    (t.sec ≠ t'.sec → t.usec = t'.usec → t.clk = t'.clk → entropyRandombytes pid t ≠ entropyRandombytes pid t') ∧
    (t.usec ≠ t'.usec → t.sec = t'.sec → t.clk = t'.clk → entropyRandombytes pid t ≠ entropyRandombytes pid t') ∧
    (t.clk ≠ t'.clk → t.sec = t'.sec → t.usec = t'.usec → entropyRandombytes pid t ≠ entropyRandombytes pid t') := by
  have i : ∀ x y, entropyHash32 x = entropyHash32 y → x = y := fun x y h => entropyHash32_inj h
  unfold entropyRandombytes
  refine ⟨fun h e => h ?_, fun h h1 h2 e => h ?_, fun h h1 h2 e => h ?_, fun h h1 h2 e => h ?_⟩
  · exact i _ _ (xor_right_inj' _ (xor_right_inj' _ (xor_right_inj' _ e)))
  · rw [h1, h2] at e
    exact i _ _ (xor_left_inj' _ (xor_right_inj' _ (xor_right_inj' _ e)))
  · rw [h1, h2] at e
    exact i _ _ (xor_left_inj' _ (xor_right_inj' _ e))
  · rw [h1, h2] at e
    exact i _ _ (xor_left_inj' _ e)

example : entropyRandombytes 4711 ⟨5, 6, 7⟩ ≠ entropyRandombytes 4712 ⟨5, 6, 7⟩ :=
  (C90_fallback_distinct 4711 4712 ⟨5, 6, 7⟩ ⟨5, 6, 7⟩).1 (by decide)

/-- C90: but the word does not depend on the order of the four values, so that moments collide: seconds and microseconds exchanged
give the same word, and equal ones cancel. -/
theorem not_C90_fallback_distinct (pid a b c : U32) :
    entropyRandombytes pid ⟨a, b, c⟩ = entropyRandombytes pid ⟨b, a, c⟩ ∧
      entropyRandombytes pid ⟨a, a, c⟩ = entropyRandombytes pid ⟨b, b, c⟩ := by
  unfold entropyRandombytes
  constructor
  · simp only
    ac_rfl
  · simp only
    rw [BitVec.xor_assoc _ (entropyHash32 a) (entropyHash32 a), BitVec.xor_self,
      BitVec.xor_assoc _ (entropyHash32 b) (entropyHash32 b), BitVec.xor_self]

/-! ## Bytes and words -/

theorem words32_bytes (l : List U32) : words32 (l.flatMap bytes32) = l := by
  induction l with
  | nil => rfl
  | cons x l ih =>
    rw [List.flatMap_cons, bytes32]
    simp only [List.cons_append, List.nil_append, words32, ih]
    congr 1
    apply BitVec.eq_of_getLsbD_eq
    intro i hi
    simp only [BitVec.truncate_eq_setWidth, BitVec.getLsbD_append, BitVec.getLsbD_setWidth, BitVec.getLsbD_ushiftRight]
    by_cases h1 : i < 8
    · simp [h1]
    · by_cases h2 : i - 8 < 8
      · simp [h1, h2, show 8 + (i - 8) = i by omega]
      · by_cases h3 : i - 8 - 8 < 8
        · simp [h1, h2, h3, show 16 + (i - 8 - 8) = i by omega]
        · simp [h1, h2, h3, show i - 8 - 8 - 8 < 8 by omega, show 24 + (i - 8 - 8 - 8) = i by omega]

theorem words32_length (l : List U8) : (words32 l).length = l.length / 4 := by
  induction l using words32.induct with
  | case1 a b c d l ih => rw [words32, List.length_cons, ih]; simp only [List.length_cons]; omega
  | case2 l h =>
    have : l.length < 4 := by
      rcases l with _ | ⟨a, _ | ⟨b, _ | ⟨c, _ | ⟨d, l⟩⟩⟩⟩
      · simp
      · simp
      · simp
      · simp
      · exact absurd rfl (h a b c d l)
    rw [words32]
    · simp; omega
    · exact h

/-- C90: a fallback request of fewer than 2 ^ 31 bytes is defined and holds the words of its calls in order. -/
theorem C90_fallback (pid : U32) (tick : Nat → Tick) (n : Nat) (h : 4 * n < 2 ^ 31) :
    (entropyFallback pid tick (4 * n)).map words32 = some ((List.range n).map fun i => entropyRandombytes pid (tick i)) := by
  have e : (BitVec.ofNat 32 (4 * n)).toInt = 4 * n := by
    rw [BitVec.toInt_eq_toNat_cond, BitVec.toNat_ofNat, Nat.mod_eq_of_lt (by omega), if_pos (by omega)]
    omega
  rw [entropyFallback, e, if_pos (by omega)]
  have hl : ∀ l : List U32, (l.flatMap bytes32).length = 4 * l.length := by
    intro l
    induction l with
    | nil => rfl
    | cons x l ih => rw [List.flatMap_cons, List.length_append, ih, List.length_cons]; simp [bytes32]; omega
  rw [show (4 * (n : Int)).toNat = 4 * n by omega]
  rw [show List.range (4 * n) = List.range n ++ (List.range (3 * n)).map (n + ·) by
    rw [show 4 * n = n + 3 * n by omega, List.range_add]]
  rw [List.map_append, List.flatMap_append, List.take_append_of_le_length (by rw [hl]; simp), List.take_of_length_le (by rw [hl]; simp),
    Option.map_some, words32_bytes]

/-- C90: a fallback request of 2 ^ 31 to 2 ^ 32 - 1 bytes is undefined: the count of hashes is a negative `int`. -/
theorem not_C90_fallback_large (pid : U32) (tick : Nat → Tick) (size : Nat) (h1 : 2 ^ 31 ≤ size) (h2 : size < 2 ^ 32) :
    entropyFallback pid tick size = none := by
  rw [entropyFallback, if_neg]
  have : (BitVec.ofNat 32 size).toInt < 0 := by
    rw [BitVec.toInt_eq_toNat_cond, BitVec.toNat_ofNat, Nat.mod_eq_of_lt h2, if_neg (by omega)]
    omega
  omega

example : 2 ^ 31 ≤ 4 * 2 ^ 29 ∧ 4 * 2 ^ 29 < 2 ^ 32 := by decide

/-! ## The system source -/

/-- C90: on Unix, reported success means that the whole buffer holds bytes read from the system, and the descriptor is closed. -/
theorem C90_unix_success (fds : List Nat) (dest : List U8) (a : UnixAns) (hl : (SysAns.unix a).legal fds dest.length)
    (h : (entropyGetbytes fds dest (.unix a)).1 = true) :
    ∃ l, a.read = some l ∧ l.length = dest.length ∧ entropyGetbytes fds dest (.unix a) = (true, l, fds) := by
  rw [entropyGetbytes] at h ⊢
  cases ho : a.opened with
  | none => rw [ho] at h; cases h
  | some fd =>
    rw [ho] at h
    cases hr : a.read with
    | none => rw [hr] at h; cases h
    | some l =>
      rw [hr] at h
      simp only at h ⊢
      have := hl.2 l hr
      by_cases hlt : l.length < dest.length
      · rw [if_pos hlt] at h; cases h
      · rw [if_neg hlt] at h ⊢
        exact ⟨l, rfl, by omega, by
          rw [show a.closed = true from h, List.drop_of_length_le (by omega), List.append_nil]⟩

example : (SysAns.unix ⟨some 3, some [1, 2], true⟩).legal [0, 1] [0, 0].length ∧
    (entropyGetbytes [0, 1] [0, 0] (.unix ⟨some 3, some [1, 2], true⟩)).1 = true := by
  refine ⟨⟨?_, ?_⟩, by decide⟩
  · rintro fd h; cases h; decide
  · rintro l h; cases h; decide

/-- Whether a request of `size` bytes opens the device and reads less than it asked for. -/
def SysAns.short (size : Nat) : SysAns → Bool
  | .unix a => a.opened.isSome && (a.read.all fun l => decide (l.length < size))
  | .win _ => false

/-- C90 fails: exactly the requests that open the device and then read less than they ask for leave the descriptor open. Over any
sequence of requests the number of open descriptors grows by the number of such requests. -/
theorem C90_leak_iff (reqs : List (List U8 × SysAns)) (fds : List Nat) :
    (reqs.foldl (fun f q => (entropyGetbytes f q.1 q.2).2.2) fds).length =
      fds.length + (reqs.filter fun q => q.2.short q.1.length).length := by
  induction reqs generalizing fds with
  | nil => rfl
  | cons q reqs ih =>
    rw [List.foldl_cons, ih]
    obtain ⟨dest, a⟩ := q
    have key : (entropyGetbytes fds dest a).2.2.length = fds.length + if a.short dest.length = true then 1 else 0 := by
      cases a with
      | win a =>
        rw [entropyGetbytes, SysAns.short]
        split
        · simp
        · split <;> simp
      | unix a =>
        rw [entropyGetbytes, SysAns.short]
        cases a.opened with
        | none => simp
        | some fd =>
          cases a.read with
          | none => simp
          | some l =>
            by_cases hlt : l.length < dest.length
            · simp [hlt]
            · simp [hlt]
    rw [key, List.filter_cons]
    by_cases hs : a.short dest.length = true
    · simp only [hs, if_true, List.length_cons]; omega
    · simp [hs]

/-- C90 fails, witness: a request whose `read` is interrupted after one byte leaves descriptor 3 open. -/
theorem not_C90_leak : entropyGetbytes [0, 1, 2] [0, 0, 0, 0] (.unix ⟨some 3, some [7], true⟩) =
    (false, [7, 0, 0, 0], [3, 0, 1, 2]) := by decide

/-- C90 fails: on Windows, if no provider can be acquired, success is reported and the buffer is as before. -/
theorem not_C90_windows (fds : List Nat) (dest : List U8) (g : Option (List U8)) :
    entropyGetbytes fds dest (.win ⟨false, g⟩) = (true, dest, fds) := rfl

/-! ## `random_entropy` -/

/-- `size` asks for `k ≥ 1` words: no size for one word, a positive count, or a tuple of positive entries with product `k`. -/
def EntSize.asks (k : Nat) : EntSize → Prop
  | .none => k = 1
  | .int n => 1 ≤ n ∧ n = k
  | .tuple l => (∀ x ∈ l, 1 ≤ x) ∧ l.prod = k

/-- The words as returned for `size`. -/
def EntSize.shaped (xs : List U32) : EntSize → EntOut
  | .none => .scalar (xs.headD 0)
  | .int n => .array [n] xs
  | .tuple l => .array l xs

theorem prod_pos_of (l : List Int) (hp : ∀ k ∈ l, 1 ≤ k) : 1 ≤ l.prod := by
  induction l with
  | nil => simp
  | cons k l ih =>
    rw [List.prod_cons]
    have h1 := hp k List.mem_cons_self
    have h2 := ih fun x hx => hp x (List.mem_cons_of_mem _ hx)
    nlinarith

theorem foldl_numel (l : List Int) (hp : ∀ k ∈ l, 1 ≤ k) (m : Int) (hm : 1 ≤ m) (hb : m * l.prod < 2 ^ 63) :
    l.foldl (fun (acc : Except PyErr Int) k => acc.bind fun n => toSsize (n * k)) (.ok m) = .ok (m * l.prod) := by
  induction l generalizing m with
  | nil => simp
  | cons k l ih =>
    have h1 := hp k List.mem_cons_self
    have h2 : ∀ x ∈ l, 1 ≤ x := fun x hx => hp x (List.mem_cons_of_mem _ hx)
    have h3 := prod_pos_of l h2
    rw [List.prod_cons, ← mul_assoc] at hb
    have h4 : 1 ≤ m * k := by nlinarith
    have h5 : m * k ≤ m * k * l.prod := by nlinarith
    rw [List.foldl_cons, show (Except.ok m).bind (fun n => toSsize (n * k)) = .ok (m * k) by
      rw [Except.bind, toSsize, if_pos (by omega)], ih h2 (m * k) h4 hb, List.prod_cons, mul_assoc]

theorem entBuffer_eq (size : EntSize) (k : Nat) (hk : 4 * k < 2 ^ 63) (h : size.asks k) : entBuffer size = .ok (4 * k) := by
  cases size with
  | none => cases h; rfl
  | int n =>
    obtain ⟨h1, h2⟩ := h
    subst h2
    rw [entBuffer, computeNumel, toSsize, if_pos (by omega)]
    · simp only [Except.bind]
      rw [if_neg (by omega), if_neg (by omega)]
      congr 1
    · exact fun h => by cases h
  | tuple l =>
    obtain ⟨h1, h2⟩ := h
    have h3 := prod_pos_of l h1
    rw [entBuffer, computeNumel, foldl_numel l h1 1 le_rfl (by omega), one_mul, h2]
    · simp only [Except.bind]
      rw [if_neg (by omega), if_neg (by omega)]
      congr 1
    · exact fun h => by cases h

theorem entReshape_eq (xs : List U32) (size : EntSize) (k : Nat) (h : size.asks k) :
    entReshape xs size = .ok (size.shaped xs) := by
  cases size with
  | none => rfl
  | int n => rfl
  | tuple l => exact if_pos fun x hx => le_trans (by decide) (h.1 x hx)

/-- **C90.** `random_entropy(size)` on Unix, for every size that asks for `k` words: either it raises `RuntimeError`, or the result
has the shape asked for and its words are exactly the `4 k` bytes read from the system. -/
theorem C90_system (pid : U32) (tick : Nat → Tick) (fds : List Nat) (a : UnixAns) (size : EntSize) (k : Nat)
    (hk : 4 * k < 2 ^ 63) (hs : size.asks k) (hl : (SysAns.unix a).legal fds (4 * k)) :
    (∃ f, randomEntropy pid tick fds (.unix a) size "system" = some (.error .runtimeError, f)) ∨
      ∃ l, a.read = some l ∧ l.length = 4 * k ∧ (words32 l).length = k ∧
        randomEntropy pid tick fds (.unix a) size "system" = some (.ok (size.shaped (words32 l)), fds) := by
  rw [randomEntropy, if_neg (by simp), entBuffer_eq size k hk hs]
  simp only
  rw [if_neg (by decide)]
  by_cases h : (entropyGetbytes fds (List.replicate (4 * k) 0) (.unix a)).1 = true
  · obtain ⟨l, h1, h2, h3⟩ := C90_unix_success fds _ a (by rw [List.length_replicate]; exact hl) h
    rw [List.length_replicate] at h2
    refine .inr ⟨l, h1, h2, by rw [words32_length, h2]; omega, ?_⟩
    rw [h3]
    simp only [if_true]
    rw [entReshape_eq _ _ k hs]
  · rw [if_neg h, if_neg (by decide)]
    exact .inl ⟨_, rfl⟩

example : (EntSize.tuple [2, 3]).asks 6 ∧ (EntSize.tuple []).asks 1 ∧ EntSize.none.asks 1 := by
  refine ⟨⟨by decide, by decide⟩, ⟨by decide, by decide⟩, rfl⟩

/-- C90: `auto` returns the words of the system if it can, otherwise fallback words; it never raises for a size it can fill. -/
theorem C90_auto (pid : U32) (tick : Nat → Tick) (fds : List Nat) (a : UnixAns) (size : EntSize) (k : Nat)
    (hk : 4 * k < 2 ^ 31) (hs : size.asks k) (hl : (SysAns.unix a).legal fds (4 * k)) :
    ∃ f xs, randomEntropy pid tick fds (.unix a) size "auto" = some (.ok (size.shaped xs), f) ∧
      (xs = (List.range k).map (fun i => entropyRandombytes pid (tick i)) ∨
        ∃ l, a.read = some l ∧ l.length = 4 * k ∧ xs = words32 l) := by
  rw [randomEntropy, if_neg (by simp), entBuffer_eq size k (by omega) hs]
  simp only
  rw [if_neg (by decide)]
  by_cases h : (entropyGetbytes fds (List.replicate (4 * k) 0) (.unix a)).1 = true
  · obtain ⟨l, h1, h2, h3⟩ := C90_unix_success fds _ a (by rw [List.length_replicate]; exact hl) h
    rw [List.length_replicate] at h2
    refine ⟨fds, words32 l, ?_, .inr ⟨l, h1, h2, rfl⟩⟩
    rw [h3]
    simp only [if_true]
    rw [entReshape_eq _ _ k hs]
  · rw [if_neg h, if_pos trivial]
    have := C90_fallback pid tick k hk
    rw [Option.map_eq_some_iff] at this
    obtain ⟨bs, e1, e2⟩ := this
    refine ⟨(entropyGetbytes fds (List.replicate (4 * k) 0) (.unix a)).2.2, _, ?_, .inl rfl⟩
    rw [e1, Option.map_some, e2, entReshape_eq _ _ k hs]

/-- C90 fails: a size that asks for no word, such as 0, raises `IndexError` instead of returning an empty array. -/
theorem not_C90_empty (pid : U32) (tick : Nat → Tick) (fds : List Nat) (a : SysAns) (size : EntSize) (hn : size ≠ .none)
    (h : computeNumel size = .ok 0) :
    randomEntropy pid tick fds a size "system" = some (.error .indexError, fds) := by
  rw [randomEntropy, if_neg (by simp)]
  have : entBuffer size = .error .indexError := by
    rw [entBuffer, h]
    · rfl
    · exact hn
  rw [this]

example : computeNumel (.int 0) = .ok 0 ∧ computeNumel (.tuple [3, 0, 2]) = .ok 0 := by decide

/-- C90 fails: on Windows without a provider `random_entropy()` returns 0, without an error. -/
theorem not_C90_windows_zero (pid : U32) (tick : Nat → Tick) (fds : List Nat) (g : Option (List U8)) :
    randomEntropy pid tick fds (.win ⟨false, g⟩) .none "system" = some (.ok (.scalar 0), fds) := rfl

/-- C90 fails: `random_entropy(2 ** 29, "fallback")` is undefined. -/
theorem not_C90_fallback_size (pid : U32) (tick : Nat → Tick) (fds : List Nat) (a : SysAns) :
    randomEntropy pid tick fds a (.int (2 ^ 29)) "fallback" = none := by
  rw [randomEntropy, if_neg (by simp), entBuffer_eq (.int (2 ^ 29)) (2 ^ 29) (by norm_num) ⟨by norm_num, by norm_num⟩]
  simp only [if_true]
  rw [not_C90_fallback_large pid tick _ (by norm_num) (by norm_num)]
  rfl

end Verif
