import Verif.Model.Api
import Mathlib.Algebra.BigOperators.Group.List.Basic

/-! C47 (`random_raw` draws exactly the requested number of values) and C51 (`UserBitGenerator`). -/

namespace Verif

/-! ### C47 -/

theorem fillLoop_eq {σ α : Type} (nx : σ → α × σ) (n : Nat) (s : σ) :
    fillLoop nx n s = (drawN nx n s, (stepOf nx)^[n] s) := by
  induction n generalizing s with
  | zero => rfl
  | succ n ih => simp [fillLoop, drawN, ih, stepOf]

theorem foldl_mul_toNat (dims : List Int) (a : Nat) :
    dims.foldl (fun a d => a * d.toNat) a = a * (dims.map Int.toNat).prod := by
  induction dims generalizing a with
  | nil => simp
  | cons d ds ih => simp [ih, Nat.mul_assoc]

theorem npEmptySize_ok {dims : List Int} (h : ∀ d ∈ dims, 0 ≤ d) :
    npEmptySize dims = .ok (dims.map Int.toNat).prod := by
  have : ¬ (dims.any (· < 0)) = true := by
    simp only [List.any_eq_true, decide_eq_true_eq, not_exists, not_and, Int.not_lt]
    exact h
  rw [npEmptySize, if_neg this, foldl_mul_toNat, Nat.one_mul]

theorem npEmptySize_err {dims : List Int} (h : ∃ d ∈ dims, d < 0) : npEmptySize dims = .error .value := by
  have : (dims.any (· < 0)) = true := by
    simp only [List.any_eq_true, decide_eq_true_eq]; exact h
  rw [npEmptySize, if_pos this]

/-- C47, the values asked for: for every generator, every shape and every state, the array holds the next
`prod(shape)` raw draws in order and the generator has moved by exactly that many. -/
theorem C47_output {σ : Type} (nx : σ → U64 × σ) (dims : List Int) (h : ∀ d ∈ dims, 0 ≤ d) (s : σ) :
    randomRaw nx (.tup dims) true s =
      (.ok (.array dims (drawN nx (dims.map Int.toNat).prod s)), (stepOf nx)^[(dims.map Int.toNat).prod] s) := by
  simp only [randomRaw, npEmptySize_ok h, fillLoop_eq, reduceCtorEq, if_false]

/-- C47, an integer size, `None`, and a refused shape. A refused call draws nothing. -/
theorem C47_output_int {σ : Type} (nx : σ → U64 × σ) (s : σ) :
    (∀ n : Nat, randomRaw nx (.int n) true s = (.ok (.array [(n : Int)] (drawN nx n s)), (stepOf nx)^[n] s)) ∧
    randomRaw nx .none true s = (.ok (.scalar (nthDraw nx 0 s)), stepOf nx s) ∧
    (∀ dims : List Int, (∃ d ∈ dims, d < 0) → randomRaw nx (.tup dims) true s = (.error .value, s)) ∧
    (∀ n : Int, n < 0 → randomRaw nx (.int n) true s = (.error .value, s)) := by
  refine ⟨fun n => ?_, rfl, fun dims h => ?_, fun n h => ?_⟩
  · have := npEmptySize_ok (dims := [(n : Int)]) (by simp)
    simp [randomRaw, this, fillLoop_eq]
  · simp [randomRaw, npEmptySize_err h]
  · have := npEmptySize_err (dims := [n]) ⟨n, by simp, h⟩
    simp [randomRaw, this]

/-- C47, `output=False` with an integer or `None`: the state is the one that `output=True` leaves. -/
theorem C47_no_output_int {σ : Type} (nx : σ → U64 × σ) (s : σ) :
    (∀ n : Nat, randomRaw nx (.int n) false s = (.ok .nothing, (randomRaw nx (.int n) true s).2)) ∧
    randomRaw nx .none false s = (.ok .nothing, (randomRaw nx .none true s).2) := by
  refine ⟨fun n => ?_, rfl⟩
  rw [(C47_output_int nx s).1 n]
  simp [randomRaw, fillLoop_eq]

/-- The counter generator used to tell numbers of draws apart. -/
def countGen (s : Nat) : U64 × Nat := (BitVec.ofNat 64 s, s + 1)

theorem countGen_iter (n s : Nat) : (stepOf countGen)^[n] s = s + n := by
  induction n generalizing s with
  | zero => rfl
  | succ n ih => rw [Function.iterate_succ_apply, ih]; simp [stepOf, countGen]; omega

/-- C47 fails for `output=False` with a tuple: `np.asarray(size).sum()` draws the sum of the dimensions.
`random_raw((2, 3), output=False)` advances the generator by 5 instead of 6. -/
theorem not_C47_no_output :
    (randomRaw countGen (.tup [2, 3]) false 0).2 = 5 ∧ (randomRaw countGen (.tup [2, 3]) true 0).2 = 6 := by
  decide +kernel

/-- C47, also broken: a shape that `output=True` refuses is accepted, and the empty tuple (one value) is
refused. -/
theorem not_C47_no_output_shapes :
    randomRaw countGen (.tup [-1, 3]) true 0 = (.error .value, 0) ∧
    randomRaw countGen (.tup [-1, 3]) false 0 = (.ok .nothing, 2) ∧
    (randomRaw countGen (.tup []) true 0).2 = 1 ∧
    randomRaw countGen (.tup []) false 0 = (.error .type, 0) := by
  decide +kernel

theorem foldl_add_int (dims : List Int) (a : Int) : dims.foldl (· + ·) a = a + dims.sum := by
  induction dims generalizing a with
  | nil => simp
  | cons d ds ih => simp [ih, Int.add_assoc]

theorem sum_toNat {dims : List Int} (h : ∀ d ∈ dims, 0 ≤ d) :
    dims.sum.toNat = (dims.map Int.toNat).sum ∧ 0 ≤ dims.sum := by
  induction dims with
  | nil => simp
  | cons d ds ih =>
    have h1 := ih (fun x hx => h x (List.mem_cons_of_mem _ hx))
    have h2 := h d (by simp)
    simp only [List.sum_cons, List.map_cons]
    omega

/-- C47, what `output=False` does with a non-empty tuple: it advances by the sum of the dimensions. Missing from
C47: the product. -/
theorem C47_no_output_partial {σ : Type} (nx : σ → U64 × σ) (dims : List Int) (hne : dims ≠ [])
    (h : ∀ d ∈ dims, 0 ≤ d) (s : σ) :
    randomRaw nx (.tup dims) false s = (.ok .nothing, (stepOf nx)^[(dims.map Int.toNat).sum] s) := by
  obtain ⟨d, ds, rfl⟩ := List.exists_cons_of_ne_nil hne
  have hs := (sum_toNat h).1
  simp only [randomRaw, npAsarraySum, if_true, fillLoop_eq, foldl_add_int, Int.zero_add, hs]

/-- C47, exactly which shapes are right: the two forms leave the same state for every generator iff the sum of the
dimensions equals their product. -/
theorem C47_no_output_iff_partial (dims : List Int) (hne : dims ≠ []) (h : ∀ d ∈ dims, 0 ≤ d) :
    (∀ (σ : Type) (nx : σ → U64 × σ) (s : σ),
      (randomRaw nx (.tup dims) false s).2 = (randomRaw nx (.tup dims) true s).2) ↔
    (dims.map Int.toNat).sum = (dims.map Int.toNat).prod := by
  constructor
  · intro H
    have := H Nat countGen 0
    rw [C47_no_output_partial _ _ hne h, C47_output _ _ h, countGen_iter, countGen_iter] at this
    simpa using this
  · intro e σ nx s
    rw [C47_no_output_partial _ _ hne h, C47_output _ _ h, e]

example : (∀ (σ : Type) (nx : σ → U64 × σ) (s : σ),
    (randomRaw nx (.tup [1, 2, 3]) false s).2 = (randomRaw nx (.tup [1, 2, 3]) true s).2) :=
  (C47_no_output_iff_partial [1, 2, 3] (by decide) (by decide)).2 rfl

/-- C47 for `ExtendedGenerator.uintegers`: the array holds the next `prod(shape)` draws of the width asked for; other
widths are refused without a draw. -/
theorem C47_uintegers {σ : Type} (nx64 : σ → U64 × σ) (nx32 : σ → U32 × σ) (size : Size) (hs : size ≠ .none)
    (h : ∀ d ∈ size.dims, 0 ≤ d) (s : σ) :
    let n := (size.dims.map Int.toNat).prod
    uintegers nx64 nx32 size 64 s = (.ok (.array64 size.dims (drawN nx64 n s)), (stepOf nx64)^[n] s) ∧
    uintegers nx64 nx32 size 32 s = (.ok (.array32 size.dims (drawN nx32 n s)), (stepOf nx32)^[n] s) ∧
    uintegers nx64 nx32 .none 64 s = (.ok (.scalar64 (nthDraw nx64 0 s)), stepOf nx64 s) ∧
    uintegers nx64 nx32 .none 32 s = (.ok (.scalar32 (nthDraw nx32 0 s)), stepOf nx32 s) ∧
    ∀ bits, bits ≠ 64 → bits ≠ 32 → uintegers nx64 nx32 size bits s = (.error .value, s) := by
  refine ⟨?_, ?_, rfl, rfl, fun b h1 h2 => ?_⟩
  · cases size with
    | none => exact absurd rfl hs
    | int n => simp only [uintegers, if_true, npEmptySize_ok h, fillLoop_eq]
    | tup d => simp only [uintegers, if_true, npEmptySize_ok h, fillLoop_eq]
  · cases size with
    | none => exact absurd rfl hs
    | int n => simp [uintegers, npEmptySize_ok h, fillLoop_eq]
    | tup d => simp [uintegers, npEmptySize_ok h, fillLoop_eq]
  · simp [uintegers, h1, h2]

example : (Size.tup [4, 0, 7]) ≠ .none ∧ ∀ d ∈ (Size.tup [4, 0, 7]).dims, 0 ≤ d := by decide

/-- C47 for `_benchmark`: `cnt` draws of the named kind; an unknown kind is refused without a draw. -/
theorem C47_benchmark {σ δ : Type} (nx64 : σ → U64 × σ) (nxd : σ → δ × σ) (cnt : Nat) (s : σ) :
    benchmark nx64 nxd cnt "uint64" s = (.ok (), (stepOf nx64)^[cnt] s) ∧
    benchmark nx64 nxd cnt "double" s = (.ok (), (stepOf nxd)^[cnt] s) ∧
    ∀ m, m ≠ "uint64" → m ≠ "double" → benchmark nx64 nxd cnt m s = (.error .value, s) := by
  refine ⟨?_, ?_, fun m h1 h2 => ?_⟩
  · simp [benchmark, fillLoop_eq]
  · simp [benchmark, fillLoop_eq]
  · simp [benchmark, h1, h2]

/-! ### C51 -/

theorem shiftor32 {a b : Nat} (hb : b < 2 ^ 32) : (a <<< 32) ||| b = a * 2 ^ 32 + b := by
  rw [Nat.shiftLeft_eq, Nat.mul_comm, Nat.two_pow_add_eq_or_of_lt hb]

/-- C51, a 32-bit source: 64-bit values take two raw draws, the first one on top; doubles take two raw draws, 27 bits
of the first and 26 of the second; 32-bit values are the raw draws. -/
theorem C51_from_32 {σ : Type} (raw : σ → Nat × σ) (h : ∀ s, (raw s).1 < 2 ^ 32) (s : σ) :
    let u : UserFuncs σ := ⟨raw, 32, none, none, none⟩
    let a := raw s
    let b := raw a.2
    (u.bg64 s).1.toNat = a.1 * 2 ^ 32 + b.1 ∧ (u.bg64 s).2 = b.2 ∧
    (u.bg32 s).1.toNat = a.1 ∧ (u.bg32 s).2 = a.2 ∧
    u.bgDouble s = (a.1 / 2 ^ 5 * 2 ^ 26 + b.1 / 2 ^ 6, b.2) ∧ (u.bgDouble s).1 < 2 ^ 53 ∧
    (u.bgRaw s).1.toNat = a.1 ∧ (u.bgRaw s).2 = a.2 := by
  intro u a b
  have ha : a.1 < 2 ^ 32 := h s
  have hb : b.1 < 2 ^ 32 := h a.2
  refine ⟨?_, rfl, ?_, rfl, ?_, ?_, ?_, rfl⟩
  · show (BitVec.ofNat 64 ((a.1 <<< 32) ||| b.1)).toNat = _
    rw [shiftor32 hb, BitVec.toNat_ofNat, Nat.mod_eq_of_lt]
    omega
  · show (BitVec.ofNat 32 a.1).toNat = _
    rw [BitVec.toNat_ofNat, Nat.mod_eq_of_lt ha]
  · show ((a.1 >>> 5) * 67108864 + (b.1 >>> 6), b.2) = _
    rw [Nat.shiftRight_eq_div_pow, Nat.shiftRight_eq_div_pow]; rfl
  · show (a.1 >>> 5) * 67108864 + (b.1 >>> 6) < _
    rw [Nat.shiftRight_eq_div_pow, Nat.shiftRight_eq_div_pow]
    omega
  · show (BitVec.ofNat 64 a.1).toNat = _
    rw [BitVec.toNat_ofNat, Nat.mod_eq_of_lt]
    omega

example : ∀ s, ((fun s : Nat => (s % 2 ^ 32, s + 1)) s).1 < 2 ^ 32 := fun s => Nat.mod_lt _ (by decide)

/-- C51, a 64-bit source: every kind of value takes one raw draw; 32-bit values are its high half, doubles its high 53
bits. -/
theorem C51_from_64 {σ : Type} (raw : σ → Nat × σ) (h : ∀ s, (raw s).1 < 2 ^ 64) (s : σ) :
    let u : UserFuncs σ := ⟨raw, 64, none, none, none⟩
    let a := raw s
    (u.bg64 s).1.toNat = a.1 ∧ (u.bg64 s).2 = a.2 ∧
    (u.bg32 s).1.toNat = a.1 / 2 ^ 32 ∧ (u.bg32 s).2 = a.2 ∧
    u.bgDouble s = (a.1 / 2 ^ 11, a.2) ∧ (u.bgDouble s).1 < 2 ^ 53 ∧
    (u.bgRaw s).1.toNat = a.1 ∧ (u.bgRaw s).2 = a.2 := by
  intro u a
  have ha : a.1 < 2 ^ 64 := h s
  have e64 : (BitVec.ofNat 64 a.1).toNat = a.1 := by rw [BitVec.toNat_ofNat, Nat.mod_eq_of_lt ha]
  refine ⟨e64, rfl, ?_, rfl, ?_, ?_, e64, rfl⟩
  · show (BitVec.ofNat 32 (a.1 >>> 32)).toNat = _
    rw [BitVec.toNat_ofNat, Nat.shiftRight_eq_div_pow, Nat.mod_eq_of_lt]
    omega
  · show (a.1 >>> 11, a.2) = _
    rw [Nat.shiftRight_eq_div_pow]
  · show a.1 >>> 11 < _
    rw [Nat.shiftRight_eq_div_pow]
    omega

example : ∀ s, ((fun s : Nat => (s * s % 2 ^ 64, s + 1)) s).1 < 2 ^ 64 := fun s => Nat.mod_lt _ (by decide)

/-- C51, supplied functions are used unchanged whatever `bits` is; the others are still derived from `next_raw`. -/
theorem C51_supplied {σ : Type} (raw f64 f32 fd : σ → Nat × σ) (bits : Int) (s : σ) :
    let u : UserFuncs σ := ⟨raw, bits, some f64, some f32, some fd⟩
    u.bg64 s = (BitVec.ofNat 64 (f64 s).1, (f64 s).2) ∧ u.bg32 s = (BitVec.ofNat 32 (f32 s).1, (f32 s).2) ∧
    u.bgDouble s = fd s ∧ u.bgRaw s = (BitVec.ofNat 64 (raw s).1, (raw s).2) := ⟨rfl, rfl, rfl, rfl⟩

/-- C51, the constructor does not check `bits`: with any value other than 32 and 64 a 32-bit source is composed to
64-bit values as usual but gives nothing except zeros as 32-bit values. -/
theorem user_bits_unchecked {σ : Type} (raw : σ → Nat × σ) (h : ∀ s, (raw s).1 < 2 ^ 32) (bits : Int)
    (h32 : bits ≠ 32) (s : σ) :
    ((⟨raw, bits, none, none, none⟩ : UserFuncs σ).bg32 s).1 = 0 := by
  have : (raw s).1 >>> 32 = 0 := by rw [Nat.shiftRight_eq_div_pow, Nat.div_eq_of_lt (h s)]
  simp [UserFuncs.bg32, h32, ctypesRet, raw64To32, this]

end Verif
