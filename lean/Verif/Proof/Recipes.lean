import Verif.Common.Recipes
import Mathlib.Data.Nat.ModEq
import Mathlib.Logic.Function.Basic
import Mathlib.Data.List.Basic
import Mathlib.Tactic.Ring
import Mathlib.Tactic.Linarith
import Mathlib.Tactic.NormNum.Prime
import Mathlib.Data.Int.ModEq
import Mathlib.Algebra.Order.Ring.Abs

/-! Streams made by the recipes, over places. -/

namespace Verif

variable {Par Seed St Org : Type}

section
variable (S : SSpec Par Seed Org) (p : Par) (sd : Seed) (o : Org) (op : Op) (w : Nat → Out)

/-- `m + 1` generators at the places `at0`. -/
def fanWorld (m : Nat) (at0 : Nat → Nat × Option U32) : SWorld Par Seed Org := ⟨(List.range (m + 1)).map fun i => ⟨p, sd, o, at0 i⟩, []⟩

/-- The places of the words drawn. -/
def placesOf (pl : Nat → Nat) : List Nat → List Nat
  | [] => []
  | i :: us => pl i :: placesOf (Function.update pl i (pl i + 1)) us

theorem placesOf_length (pl : Nat → Nat) (us : List Nat) : (placesOf pl us).length = us.length := by
  induction us generalizing pl with
  | nil => rfl
  | cons i us ih => simp [placesOf, ih]

theorem placesOf_get (pl : Nat → Nat) (us : List Nat) (t : Nat) (ht : t < us.length) :
    (placesOf pl us)[t]? = some (pl us[t] + (us.take t).count us[t]) := by
  induction us generalizing pl t with
  | nil => simp at ht
  | cons i us ih =>
    cases t with
    | zero => simp [placesOf]
    | succ t =>
      have ht' : t < us.length := by simpa using ht
      rw [placesOf, List.getElem?_cons_succ, ih _ t ht']
      simp only [List.getElem_cons_succ, List.take_succ_cons, List.count_cons]
      by_cases h : us[t] = i
      · subst h
        simp
        omega
      · rw [Function.update_of_ne h, if_neg (by simpa using fun e => h e.symm), Nat.add_zero]

theorem range_map_set {α : Type} (M i : Nat) (f : Nat → α) (x : α) :
    ((List.range M).map f).set i x = (List.range M).map (Function.update f i x) := by
  apply List.ext_getElem
  · simp
  · intro j h1 h2
    rw [List.getElem_set]
    by_cases h : i = j
    · subst h; simp
    · simp [h, Function.update_of_ne (Ne.symm h)]

theorem range_map_get {α : Type} (M i : Nat) (f : Nat → α) (hi : i < M) : ((List.range M).map f)[i]? = some (f i) := by simp [hi]

variable {S p sd o op w}

theorem fan_draws {m : Nat} {st : Nat → Nat → Nat × Option U32} {pl : Nat → Nat}
    (hd : ∀ i ≤ m, ∀ k, S.draw o op (st i k) = (w (pl i + k), st i (k + 1))) (c : Nat → Nat) (us : List Nat) (hu : ∀ i ∈ us, i ≤ m) :
    S.run (fanWorld p sd o m fun i => st i (c i)) (us.map fun i => .draw i op) = (placesOf (fun i => pl i + c i) us).map fun n => .val (w n) := by
  induction us generalizing c with
  | nil => rfl
  | cons i us ih =>
    have hi' : i ≤ m := hu i (by simp)
    have hi : i < m + 1 := Nat.lt_succ_of_le hi'
    have e : S.step (fanWorld p sd o m fun i => st i (c i)) (.draw i op) =
        (.val (w (pl i + c i)), fanWorld p sd o m fun j => st j (Function.update c i (c i + 1) j)) := by
      rw [SSpec.step, fanWorld, range_map_get _ _ _ hi]
      dsimp only
      rw [hd i hi', range_map_set _ _ _ _, fanWorld]
      congr 3
      funext j
      by_cases h : j = i
      · subst h; simp
      · simp [Function.update_of_ne h]
    have e2 : Function.update (fun i => pl i + c i) i (pl i + c i + 1) = fun j => pl j + Function.update c i (c i + 1) j := by
      funext j
      by_cases h : j = i
      · subst h; simp [Nat.add_assoc]
      · simp [Function.update_of_ne h]
    rw [List.map_cons, SSpec.run, e, placesOf, List.map_cons, e2]
    dsimp only
    rw [ih _ fun j hj => hu j (List.mem_cons_of_mem _ hj)]

theorem spec_alone {st : Nat → Nat × Option U32} (hs : S.start p sd = .ok o) (h0 : st 0 = (0, none))
    (hd : ∀ n, S.draw o op (st n) = (w n, st (n + 1))) (n : Nat) :
    (S.program (.new p sd :: List.replicate (n + 1) (.draw 0 op)))[n + 1]? = some (.val (w n)) := by
  have e : S.program (.new p sd :: List.replicate (n + 1) (.draw 0 op)) =
      .done :: S.run (fanWorld p sd o 0 fun _ => st 0) ((List.replicate (n + 1) 0).map fun i => .draw i op) := by
    rw [SSpec.program, SSpec.run, SSpec.step, hs, List.map_replicate, h0]
    rfl
  rw [e, List.getElem?_cons_succ, fan_draws (m := 0) (st := fun _ => st) (pl := fun _ => 0) (w := w) (fun _ _ k => by rw [Nat.zero_add]; exact hd k) (fun _ => 0) _ (by simp), List.getElem?_map,
    placesOf_get _ _ n (by simp)]
  simp

/-- After `make`, `m + 1` generators stand at the places `at0`. -/
def Makes (S : SSpec Par Seed Org) (p : Par) (sd : Seed) (o : Org) (make : List (SOp Par Seed)) (m : Nat) (at0 : Nat → Nat × Option U32) : Prop :=
  ∀ rest, S.program (make ++ rest) = List.replicate make.length .done ++ S.run (fanWorld p sd o m at0) rest

theorem fanWorld_succ (m : Nat) (at0 : Nat → Nat × Option U32) : fanWorld p sd o (m + 1) at0 =
    ⟨(fanWorld p sd o m at0).insts ++ [⟨p, sd, o, at0 (m + 1)⟩], []⟩ := by
  simp [fanWorld, List.range_succ]

theorem fanWorld_congr (m : Nat) (at0 at1 : Nat → Nat × Option U32) (h : ∀ i ≤ m, at0 i = at1 i) : fanWorld p sd o m at0 = fanWorld p sd o m at1 := by
  rw [fanWorld, fanWorld]
  congr 1
  refine List.map_congr_left fun i hi => ?_
  rw [h i (by simpa [Nat.lt_succ_iff] using hi)]

theorem jumpChain_makes (hs : S.start p sd = .ok o) {f : Int → Option (Nat × Option U32 → Nat × Option U32)} (hf : S.jumped = some f)
    {k : Nat × Option U32 → Nat × Option U32} (hk : f 1 = some k) {at0 : Nat → Nat × Option U32} (h0 : at0 0 = (0, none))
    (hJ : ∀ i, k (at0 i) = at0 (i + 1)) (m : Nat) : Makes S p sd o (jumpChain p sd m) m at0 := by
  induction m with
  | zero =>
    intro rest
    simp only [jumpChain, List.range_zero, List.map_nil, List.singleton_append, SSpec.program, SSpec.run, SSpec.step, hs]
    simp [fanWorld, h0]
  | succ m ih =>
    intro rest
    have e : jumpChain p sd (m + 1) = jumpChain p sd m ++ [.jumped m 1] := by simp [jumpChain, List.range_succ]
    rw [e, List.append_assoc, ih, List.length_append, List.replicate_add, List.append_assoc]
    congr 1
    rw [List.singleton_append, SSpec.run, SSpec.step]
    have h : (fanWorld p sd o m at0).insts[m]? = some ⟨p, sd, o, at0 m⟩ := range_map_get _ _ _ (Nat.lt_succ_self m)
    rw [h]
    simp only [hf, hk]
    rw [hJ, fanWorld_succ]
    rfl

theorem advanceFan_makes (hs : S.start p sd = .ok o) {f : Int → Nat × Option U32 → Nat × Option U32} (hf : S.advance = some f)
    {step : Int} {at0 : Nat → Nat × Option U32} (he : ∀ i : Nat, S.advErr ((i + 1 : Nat) * step) = none)
    (h0 : at0 0 = (0, none)) (hJ : ∀ i : Nat, f ((i + 1 : Nat) * step) (0, none) = at0 (i + 1)) (m : Nat) :
    Makes S p sd o (advanceFan p sd step m) m at0 := by
  induction m with
  | zero =>
    intro rest
    simp only [advanceFan, List.range_zero, List.flatMap_nil, List.singleton_append, SSpec.program, SSpec.run, SSpec.step, hs]
    simp [fanWorld, h0]
  | succ m ih =>
    intro rest
    have e : advanceFan p sd step (m + 1) = advanceFan p sd step m ++ [.new p sd, .advance (m + 1) ((m + 1) * step)] := by
      simp [advanceFan, List.range_succ]
    rw [e, List.append_assoc, ih, List.length_append, List.replicate_add, List.append_assoc]
    congr 1
    have e1 : S.step (fanWorld p sd o m at0) (.new p sd) = (.done, fanWorld p sd o (m + 1) (Function.update at0 (m + 1) (0, none))) := by
      rw [SSpec.step, hs, fanWorld_succ, Function.update_self]
      rw [fanWorld_congr m (Function.update at0 (m + 1) (0, none)) at0 fun i hi => Function.update_of_ne (by omega) _ _]
      rfl
    have e2 : S.step (fanWorld p sd o (m + 1) (Function.update at0 (m + 1) (0, none))) (.advance (m + 1) ((m + 1) * step)) =
        (.done, fanWorld p sd o (m + 1) at0) := by
      rw [SSpec.step]
      have h : (fanWorld p sd o (m + 1) (Function.update at0 (m + 1) (0, none))).insts[m + 1]? = some ⟨p, sd, o, 0, none⟩ := by
        rw [fanWorld, range_map_get _ _ _ (Nat.lt_succ_self _), Function.update_self]
      rw [h]
      have he' := he m
      have hJ' := hJ m
      push_cast at he' hJ'
      simp only [hf, he', hJ']
      rw [fanWorld, range_map_set _ _ _ _, fanWorld]
      congr 3
      funext j
      by_cases hj : j = m + 1
      · subst hj; simp
      · simp [Function.update_of_ne hj]
    rw [List.cons_append, List.singleton_append, SSpec.run, e1]
    dsimp only
    rw [SSpec.run, e2]
    rfl

end

/-- The recipe works if the class keeps its promise on the programs that use it and the places are apart. -/
theorem shareOut_of {C : GCls Par Seed St} {S : SSpec Par Seed Org} {p : Par} {sd : Seed} {o : Org} {op : Op} {w : Nat → Out}
    {make : List (SOp Par Seed)} {m L P : Nat} {pl : Nat → Nat} {st : Nat → Nat → Nat × Option U32}
    (hC : ∀ rest : List (Nat × Op), C.program (make ++ rest.map fun r => .draw r.1 r.2) = S.program (make ++ rest.map fun r => .draw r.1 r.2))
    (hA : ∀ rest : List (Nat × Op), C.program (.new p sd :: rest.map fun r => .draw r.1 r.2) = S.program (.new p sd :: rest.map fun r => .draw r.1 r.2))
    (hs : S.start p sd = .ok o) (h0 : st 0 0 = (0, none)) (hp0 : pl 0 = 0)
    (hd : ∀ i ≤ m, ∀ k, S.draw o op (st i k) = (w (pl i + k), st i (k + 1)))
    (hm : Makes S p sd o make m fun i => st i 0) (hP : ∀ d, (∀ n, w (n + d) = w n) → P ∣ d)
    (hp : ∀ i j a b, i ≤ m → j ≤ m → a < L → b < L → pl i + a ≡ pl j + b [MOD P] → i = j ∧ a = b) :
    ShareOut C p sd make op m L P := by
  have hal : ∀ n, C.alone p sd op n = some (.val (w n)) := fun n => by
    have := hA (List.replicate (n + 1) (0, op))
    rw [List.map_replicate] at this
    rw [GCls.alone, this, spec_alone hs h0 fun n => by have := hd 0 (Nat.zero_le _) n; rwa [hp0, Nat.zero_add] at this]
  refine ⟨fun d h => hP d fun n => ?_, pl, fun us hu => ?_, hp⟩
  · have := h n
    rw [hal, hal] at this
    exact SRes.val.inj (Option.some.inj this)
  · have := hC (us.map fun i => (i, op))
    simp only [List.map_map] at this
    rw [show (us.map fun i => (SOp.draw i op : SOp Par Seed)) = us.map ((fun r : Nat × Op => (SOp.draw r.1 r.2 : SOp Par Seed)) ∘ fun i => (i, op))
      from rfl, this]
    rw [show us.map ((fun r : Nat × Op => (SOp.draw r.1 r.2 : SOp Par Seed)) ∘ fun i => (i, op)) = us.map fun i => .draw i op from rfl, hm,
      fan_draws hd (fun _ => 0) _ hu, List.map_append, List.map_replicate, List.map_map]
    congr 1
    apply List.ext_getElem
    · simp [placesOf_length]
    · intro t h1 h2
      have ht : t < us.length := by simpa using h2
      have hg := placesOf_get pl us t ht
      have ht' : t < (placesOf pl us).length := by rw [placesOf_length]; exact ht
      rw [List.getElem?_eq_getElem ht', Option.some.injEq] at hg
      simp [hal, ht, hg]

/-- What a lone generator draws. -/
theorem alone_val {C : GCls Par Seed St} {S : SSpec Par Seed Org} {p : Par} {sd : Seed} {o : Org} {op : Op} {w : Nat → Out}
    (hA : ∀ rest : List (Nat × Op), C.program (.new p sd :: rest.map fun r => .draw r.1 r.2) = S.program (.new p sd :: rest.map fun r => .draw r.1 r.2))
    (hs : S.start p sd = .ok o) (hd : ∀ n, S.draw o op (n, none) = (w n, n + 1, none)) (n : Nat) : C.alone p sd op n = some (.val (w n)) := by
  have := hA (List.replicate (n + 1) (0, op))
  rw [List.map_replicate] at this
  rw [GCls.alone, this, spec_alone (st := fun n => (n, none)) hs rfl hd]

/-- The same, when places are counted by one number. -/
theorem shareOut_at {C : GCls Par Seed St} {S : SSpec Par Seed Org} {p : Par} {sd : Seed} {o : Org} {op : Op} {w : Nat → Out}
    {make : List (SOp Par Seed)} {m L P : Nat} {pl : Nat → Nat}
    (hC : ∀ rest : List (Nat × Op), C.program (make ++ rest.map fun r => .draw r.1 r.2) = S.program (make ++ rest.map fun r => .draw r.1 r.2))
    (hA : ∀ rest : List (Nat × Op), C.program (.new p sd :: rest.map fun r => .draw r.1 r.2) = S.program (.new p sd :: rest.map fun r => .draw r.1 r.2))
    (hs : S.start p sd = .ok o) (hd : ∀ n, S.draw o op (n, none) = (w n, n + 1, none)) (hp0 : pl 0 = 0)
    (hm : Makes S p sd o make m fun i => (pl i, none)) (hP : ∀ d, (∀ n, w (n + d) = w n) ↔ P ∣ d)
    (hp : ∀ i j a b, i ≤ m → j ≤ m → a < L → b < L → pl i + a ≡ pl j + b [MOD P] → i = j ∧ a = b) :
    ShareOut C p sd make op m L P :=
  shareOut_of (st := fun i k => (pl i + k, none)) hC hA hs (by rw [hp0]) hp0 (fun i _ k => hd (pl i + k)) hm (fun d => (hP d).1) hp

/-! ### Places apart -/

/-- Multiples of `J`, `J` words each, with room for all of them. -/
theorem apart_strides {J P m L : Nat} (hP : (m + 1) * J ≤ P) (hL : L ≤ J) (i j a b : Nat) (hi : i ≤ m) (hj : j ≤ m) (ha : a < L) (hb : b < L)
    (h : i * J + a ≡ j * J + b [MOD P]) : i = j ∧ a = b := by
  have hi' : i * J + a < P := lt_of_lt_of_le (by nlinarith) hP
  have hj' : j * J + b < P := lt_of_lt_of_le (by nlinarith) hP
  have e : i * J + a = j * J + b := by
    have := h
    rwa [Nat.ModEq, Nat.mod_eq_of_lt hi', Nat.mod_eq_of_lt hj'] at this
  have hJ : 0 < J := by omega
  have h1 := congrArg (· / J) e
  simp only [Nat.mul_comm _ J, Nat.mul_add_div hJ, Nat.div_eq_of_lt (show a < J by omega), Nat.div_eq_of_lt (show b < J by omega)] at h1
  obtain rfl : i = j := by omega
  exact ⟨rfl, by omega⟩

theorem sq_ne_five {a b : Nat} (hb : 0 < b) (h : a * a = 5 * (b * b)) : False := by
  induction b using Nat.strong_induction_on generalizing a with
  | _ b ih =>
    have h5 : Nat.Prime 5 := by norm_num
    obtain ⟨c, rfl⟩ : 5 ∣ a := by
      have : 5 ∣ a * a := ⟨_, h⟩
      exact (h5.dvd_mul.1 this).elim id id
    have h1 : b * b = 5 * (c * c) := by nlinarith
    obtain ⟨e, rfl⟩ : 5 ∣ b := by
      have : 5 ∣ b * b := ⟨_, h1⟩
      exact (h5.dvd_mul.1 this).elim id id
    exact ih e (by omega) (by omega) (a := c) (by nlinarith)

/-- Multiples of a golden section `F` of `N`: `d * F` is never nearer than `N / (3 d)` to a multiple of `N`. -/
theorem golden_gap {F N E M : Int} (hN : 0 < N) (hF : 0 < F) (hFN : 8 * F ≤ 5 * N) (hE : |F * F + F * N - N * N| ≤ E) (hM : 8 * (M * M * E) ≤ N * N)
    {d x q L : Int} (hd : 0 < d) (hdM : d ≤ M) (hx : |x| < L) (hL : 3 * (d * L) ≤ N) (h : d * F = q * N + x) : False := by
  have hx' := abs_lt.1 hx
  have hE' := abs_le.1 hE
  have hL0 : 0 < L := lt_of_le_of_lt (abs_nonneg x) hx
  -- the norm form does not vanish
  have hne : d * d - q * q - q * d ≠ 0 := by
    intro h0
    -- (2q + d)^2 = 5 d^2
    have h5 : (2 * q + d) * (2 * q + d) = 5 * (d * d) := by linarith [h0, (by ring : (2 * q + d) * (2 * q + d) = 4 * (q * q) + 4 * (q * d) + d * d)]
    have h6 : (2 * q + d).natAbs * (2 * q + d).natAbs = 5 * (d.natAbs * d.natAbs) := by
      zify
      rw [abs_mul_abs_self, abs_mul_abs_self]
      exact h5
    exact sq_ne_five (by omega) h6
  have key : N * N * (d * d - q * q - q * d) = x * (2 * (d * F) + d * N - x) - d * d * (F * F + F * N - N * N) := by
    have : q * N = d * F - x := by linarith
    calc N * N * (d * d - q * q - q * d) = N * N * (d * d) - (q * N) * (q * N) - (q * N) * (d * N) := by ring
      _ = _ := by rw [this]; ring
  have h1 : N * N ≤ |N * N * (d * d - q * q - q * d)| := by
    rw [abs_mul, abs_of_pos (mul_pos hN hN)]
    exact le_mul_of_one_le_right (mul_pos hN hN).le (Int.one_le_abs hne)
  have h2 : |x * (2 * (d * F) + d * N - x) - d * d * (F * F + F * N - N * N)| ≤ L * (2 * (d * F) + d * N + L) + M * M * E := by
    refine (abs_sub _ _).trans (add_le_add ?_ ?_)
    · rw [abs_mul]
      refine mul_le_mul hx.le ?_ (abs_nonneg _) hL0.le
      have := mul_pos hd hF
      have := mul_pos hd hN
      rw [abs_le]
      constructor <;> linarith
    · rw [abs_mul, abs_of_pos (mul_pos hd hd)]
      exact mul_le_mul (mul_le_mul hdM hdM hd.le (hd.le.trans hdM)) hE (abs_nonneg _) (mul_nonneg (hd.le.trans hdM) (hd.le.trans hdM))
  rw [key] at h1
  have h3 := h1.trans h2
  have h4 : L * (2 * (d * F) + d * N + L) ≤ L * (2 * (d * F) + d * N) + L * L := by linarith [mul_add L (2 * (d * F) + d * N) L]
  have h5 : 4 * (L * (2 * (d * F) + d * N)) ≤ 3 * (N * N) := by
    have e1 : 4 * (L * (2 * (d * F) + d * N)) = d * L * (8 * F) + 4 * (d * L) * N := by ring
    have e2 : d * L * (8 * F) ≤ d * L * (5 * N) := mul_le_mul_of_nonneg_left hFN (mul_pos hd hL0).le
    have e3 : 3 * (d * L) * N ≤ N * N := mul_le_mul_of_nonneg_right hL hN.le
    nlinarith
  have h6 : 9 * (L * L) ≤ N * N := by
    have : 3 * L ≤ N := by nlinarith
    nlinarith
  linarith [mul_pos hN hN]

/-- Multiples of a golden section: `m + 1` blocks of `L` words. -/
theorem apart_golden {F N m L M : Nat} (E : Int) (hF : 0 < F) (hFN : 8 * F ≤ 5 * N)
    (hE : |(F * F + F * N - N * N : Int)| ≤ E) (hM : 8 * (M * M * E) ≤ N * N) (hm : m ≤ M) (hL : 3 * (m * L) ≤ N) (hLN : L ≤ N) (i j a b : Nat)
    (hi : i ≤ m) (hj : j ≤ m) (ha : a < L) (hb : b < L) (h : i * F + a ≡ j * F + b [MOD N]) : i = j ∧ a = b := by
  have hN : 0 < N := by omega
  have main : ∀ i j a b : Nat, i ≤ m → j ≤ m → a < L → b < L → i * F + a ≡ j * F + b [MOD N] → ¬ i < j := by
    intro i j a b hi hj ha hb h hij
    obtain ⟨q, hq⟩ := (Nat.modEq_iff_dvd.1 h)
    push_cast at hq
    have h3 : 3 * (((j : Int) - i) * L) ≤ N := by
      have : ((j : Int) - i) * L ≤ m * L := mul_le_mul_of_nonneg_right (by omega) (by omega)
      have : (3 * (m * L) : Int) ≤ N := by exact_mod_cast hL
      linarith
    refine golden_gap (F := F) (N := N) (E := E) (M := M) (d := j - i) (x := a - b) (q := q) (L := L) (by omega) (by omega) (by exact_mod_cast hFN) hE hM
      (by omega) (by omega) (abs_lt.2 ⟨by omega, by omega⟩) h3 (by linarith)
  obtain rfl : i = j := by
    rcases Nat.lt_trichotomy i j with h1 | h1 | h1
    · exact absurd h1 (main i j a b hi hj ha hb h)
    · exact h1
    · exact absurd h1 (main j i b a hj hi hb ha h.symm)
  refine ⟨rfl, ?_⟩
  have := Nat.ModEq.add_left_cancel' _ h
  rwa [Nat.ModEq, Nat.mod_eq_of_lt (by omega), Nat.mod_eq_of_lt (by omega)] at this

end Verif
