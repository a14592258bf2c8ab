import Verif.Model.Setters
import Mathlib.Tactic.Positivity
import Mathlib.Tactic.NormNum

/-! Round-trip lemmas for the conversions used by state setters. -/

namespace Verif

open SetM

variable {σ α β : Type}

@[simp] theorem Res.pure_eq (a : α) : (pure a : Res α) = .ok a := id rfl
@[simp] theorem Res.ok_bind (a : α) (f : α → Res β) : (Res.ok a >>= f) = f a := id rfl
@[simp] theorem Res.err_bind (e : PyErr) (f : α → Res β) : (Res.err e >>= f) = .err e := id rfl
@[simp] theorem Res.ub_bind (f : α → Res β) : (Res.ub >>= f) = .ub := id rfl

theorem SetM.bind_run (x : SetM σ α) (f : α → SetM σ β) (s : σ) : (x >>= f) s = match x s with
    | (.ok a, s) => f a s
    | (.err e, s) => (.err e, s)
    | (.ub, s) => (.ub, s) := id rfl

theorem SetM.pure_run (a : α) (s : σ) : (pure a : SetM σ α) s = (.ok a, s) := id rfl
theorem SetM.lift_run (r : Res α) (s : σ) : lift r s = (r, s) := id rfl
theorem SetM.modify_run (f : σ → σ) (s : σ) : modify f s = (.ok (), f s) := id rfl
theorem SetM.read_run (s : σ) : read s = (.ok s, s) := id rfl
theorem SetM.store_ok (a : α) (f : α → σ → σ) (s : σ) : store (.ok a) f s = (.ok (), f a s) := id rfl
theorem SetM.store_err (e : PyErr) (f : α → σ → σ) (s : σ) : store (.err e) f s = (.err e, s) := id rfl
theorem SetM.store_ub (f : α → σ → σ) (s : σ) : store .ub f s = (.ub, s) := id rfl

theorem SetM.lift_bind (a : α) (f : α → SetM σ β) (s : σ) : (lift (.ok a) >>= f) s = f a s := id rfl
theorem SetM.lift_err_bind (e : PyErr) (f : α → SetM σ β) (s : σ) : (lift (.err e) >>= f) s = (.err e, s) := id rfl
theorem SetM.modify_bind (m : σ → σ) (f : Unit → SetM σ β) (s : σ) : (modify m >>= f) s = f () (m s) := id rfl
theorem SetM.read_bind (f : σ → SetM σ β) (s : σ) : (read >>= f) s = f s s := id rfl
theorem SetM.store_bind (a : α) (p : α → σ → σ) (f : Unit → SetM σ β) (s : σ) : (store (.ok a) p >>= f) s = f () (p a s) := id rfl
theorem SetM.store_err_bind (e : PyErr) (p : α → σ → σ) (f : Unit → SetM σ β) (s : σ) :
    (store (.err e) p >>= f) s = (.err e, s) := id rfl
theorem SetM.bind_of_ok {x : SetM σ α} {f : α → SetM σ β} {s s' : σ} {a : α} (h : x s = (.ok a, s')) : (x >>= f) s = f a s' := by
  rw [SetM.bind_run, h]

theorem item_head (k : String) (v : PyVal) (l : List (String × PyVal)) : (mkDict ((k, v) :: l)).item k = .ok v := by
  simp [mkDict, PyVal.item, List.lookup]
theorem item_tail (k k' : String) (v : PyVal) (l : List (String × PyVal)) (h : k ≠ k') :
    (mkDict ((k', v) :: l)).item k = (mkDict l).item k := by
  have : (k == k') = false := by simpa using h
  simp [mkDict, PyVal.item, List.lookup, this]
theorem getD_head (k : String) (v d : PyVal) (l : List (String × PyVal)) : getD (mkDict ((k, v) :: l)) k d = v := by
  simp [mkDict, getD, List.lookup]
theorem getD_tail (k k' : String) (v d : PyVal) (l : List (String × PyVal)) (h : k ≠ k') :
    getD (mkDict ((k', v) :: l)) k d = getD (mkDict l) k d := by
  have : (k == k') = false := by simpa using h
  simp [mkDict, getD, List.lookup, this]
theorem header_mk (short full : String) (l : List (String × PyVal)) :
    header short full (mkDict (("bit_generator", .str full) :: l)) = .ok () := by
  simp [header, mkDict, List.lookup]
theorem header_short (short full : String) (l : List (String × PyVal)) :
    header short full (mkDict (("bit_generator", .str short) :: l)) = .ok () := by
  simp [header, mkDict, List.lookup]
theorem item2_eq (v : PyVal) (a b : String) : v.item2 a b = v.item a >>= fun x => x.item b := id rfl
theorem asBool_bool (b : Bool) : asBool (.bool b) = .ok b := id rfl

theorem asU_pyU {w : Nat} (x : BitVec w) : asU w (pyU x) = .ok x := by
  have h := x.isLt
  have h' : (x.toNat : Int) < 2 ^ w := by exact_mod_cast h
  simp only [asU, pyU]
  rw [if_pos ⟨Int.natCast_nonneg _, h'⟩]
  congr 1
  apply BitVec.eq_of_toNat_eq
  simp

theorem asInt_pyI (x : U32) : asInt (pyI x) = .ok x := by
  have h1 := BitVec.le_toInt x
  have h2 := BitVec.toInt_lt (x := x)
  simp only [asInt, pyI]
  rw [if_pos ⟨by simpa using h1, by simpa using h2⟩, BitVec.ofInt_toInt]

theorem vecOf_toNat {w n : Nat} (v : Vector (BitVec w) n) : vecOf w n (v.toList.map BitVec.toNat) = v := by
  apply Vector.ext
  intro i hi
  simp [vecOf, List.getD]

theorem checkStateArray_pyArr {w n : Nat} (v : Vector (BitVec w) n) : checkStateArray (pyArr v) n w = .ok v := by
  simp only [checkStateArray, pyArr]
  rw [if_pos (by simp), vecOf_toNat]

theorem at_pyArr {w n : Nat} (v : Vector (BitVec w) n) (i : Nat) (h : i < n) : (pyArr v).at i = .ok (pyU v[i]) := by
  have : v[i].toNat % 2 ^ w = v[i].toNat := Nat.mod_eq_of_lt v[i].isLt
  simp [PyVal.at, pyArr, pyU, h, this]

theorem at_floats {n : Nat} (v : Vector U64 n) (i : Nat) (h : i < n) : (PyVal.floats v.toList).at i = .ok (.float v[i]) := by
  simp [PyVal.at, h]

/-- A field reached by `g` and written by `p`. -/
structure Lens (g : σ → α) (p : α → σ → σ) : Prop where
  get_put : ∀ a s, g (p a s) = a
  put_get : ∀ s, p (g s) s = s
  put_put : ∀ a b s, p a (p b s) = p a s

theorem storeFrom_ok {w n : Nat} {conv : PyVal → Res (BitVec w)} {g : σ → Vector (BitVec w) n}
    {p : Vector (BitVec w) n → σ → σ} (hl : Lens g p) {src : PyVal} (v : Vector (BitVec w) n)
    (hsrc : ∀ i (h : i < n), (do conv (← src.at i)) = Res.ok v[i]) (is : List Nat) (his : ∀ i ∈ is, i < n) (s : σ) :
    storeFrom conv g p src is s = (.ok (), p (is.foldl (fun u i => if h : i < n then u.setIfInBounds i v[i] else u) (g s)) s) := by
  induction is generalizing s with
  | nil => simp [storeFrom, SetM.pure_run, hl.put_get]
  | cons i is ih =>
    have hi : i < n := his i (by simp)
    rw [storeFrom, SetM.bind_run, hsrc i hi, SetM.store_ok]
    simp only []
    rw [ih (fun j hj => his j (by simp [hj])), hl.get_put, hl.put_put]
    simp [hi]

theorem foldl_set {w n : Nat} (v u : Vector (BitVec w) n) (k : Nat) (j : Nat) (hj : j < n) :
    ((List.range k).foldl (fun u i => if h : i < n then u.setIfInBounds i v[i] else u) u)[j] = if j < k then v[j] else u[j] := by
  induction k with
  | zero => simp
  | succ k ih =>
    rw [List.range_succ, List.foldl_append]
    simp only [List.foldl_cons, List.foldl_nil]
    split
    · rename_i hk
      rw [Vector.getElem_setIfInBounds]
      by_cases hkj : k = j
      · subst hkj; simp
      · rw [if_neg hkj, ih]
        by_cases h1 : j < k
        · rw [if_pos h1, if_pos (by omega)]
        · rw [if_neg h1, if_neg (by omega)]
    · rw [ih, if_pos (show j < k by omega), if_pos (show j < k + 1 by omega)]

theorem storeVec_ok {w n : Nat} {conv : PyVal → Res (BitVec w)} {g : σ → Vector (BitVec w) n}
    {p : Vector (BitVec w) n → σ → σ} (hl : Lens g p) {src : PyVal} (v : Vector (BitVec w) n)
    (hsrc : ∀ i (h : i < n), (do conv (← src.at i)) = Res.ok v[i]) (s : σ) :
    storeVec conv g p src s = (.ok (), p v s) := by
  rw [storeVec, storeFrom_ok hl v hsrc _ (fun i hi => List.mem_range.mp hi)]
  congr 2
  apply Vector.ext
  intro j hj
  rw [foldl_set, if_pos hj]

theorem storeVec_pyArr {w n : Nat} {g : σ → Vector (BitVec w) n} {p : Vector (BitVec w) n → σ → σ} (hl : Lens g p)
    (v : Vector (BitVec w) n) (s : σ) : storeVec (asU w) g p (pyArr v) s = (.ok (), p v s) :=
  storeVec_ok hl v (fun i h => by rw [at_pyArr v i h, Res.ok_bind, asU_pyU]) s

theorem storeVec_floats {n : Nat} {g : σ → Vector U64 n} {p : Vector U64 n → σ → σ} (hl : Lens g p)
    (v : Vector U64 n) (s : σ) : storeVec asDouble g p (.floats v.toList) s = (.ok (), p v s) :=
  storeVec_ok hl v (fun i h => by rw [at_floats v i h, Res.ok_bind]; rfl) s

theorem ofInt_div (n : Nat) : BitVec.ofInt 64 ((n : Int) / 2 ^ 64) = BitVec.ofNat 64 (n / 2 ^ 64) := by
  rw [← BitVec.ofInt_natCast]; push_cast; rfl
theorem ofInt_mod (n : Nat) : BitVec.ofInt 64 ((n : Int) % 2 ^ 64) = BitVec.ofNat 64 (n % 2 ^ 64) := by
  rw [← BitVec.ofInt_natCast]; push_cast; rfl

theorem join128 (x : U128) :
    (BitVec.ofNat 64 (x.toNat / 2 ^ 64)).zeroExtend 128 <<< 64 ||| (BitVec.ofNat 64 (x.toNat % 2 ^ 64)).zeroExtend 128 = x := by
  apply BitVec.eq_of_getLsbD_eq
  intro i hi
  simp only [BitVec.getLsbD_or, BitVec.getLsbD_shiftLeft, BitVec.truncate_eq_setWidth, BitVec.getLsbD_setWidth, BitVec.getLsbD_ofNat, hi,
    decide_true, Bool.true_and, Nat.testBit_mod_two_pow, Nat.testBit_div_two_pow, BitVec.testBit_toNat]
  by_cases h : i < 64
  · simp [h]
  · have : i - 64 < 64 := by omega
    have h3 : i - 64 + 64 = i := by omega
    have h4 : i - 64 < 128 := by omega
    simp [h, this, h3, h4]

theorem div_lt_64 (n : Nat) (h : n < 2 ^ 128) : n / 2 ^ 64 < 2 ^ 64 := Nat.div_lt_of_lt_mul (by rw [← Nat.pow_add]; exact h)

theorem jsfPar_pyI (x size : U32) (d e : Int) : jsfPar (pyI x) size d e = .ok x := by
  have : jsfPar (pyI x) size d e = asInt (pyI x) := id rfl
  rw [this, asInt_pyI]

theorem pyInt_pyU128 (x : U128) : pyInt (pyU128 x) = .ok (x.toNat : Int) := by
  have hhi : (x >>> 64).toNat = x.toNat / 2 ^ 64 := by rw [BitVec.toNat_ushiftRight, Nat.shiftRight_eq_div_pow]
  have hlo : (x.truncate 64 : U64).toNat = x.toNat % 2 ^ 64 := by rw [BitVec.truncate_eq_setWidth, BitVec.toNat_setWidth]
  have e : ((x.toNat / 2 ^ 64 : Nat) : Int) * 2 ^ 64 + ((x.toNat % 2 ^ 64 : Nat) : Int) = (x.toNat : Int) := by
    have := Nat.div_add_mod' x.toNat (2 ^ 64)
    exact_mod_cast this
  rw [pyU128, hhi, hlo, e, pyInt]

theorem split128_toNat (x : U128) : split128 (x.toNat : Int) = Res.ok x := by
  have h1 : (0 : Int) ≤ (x.toNat : Int) / 2 ^ 64 ∧ (x.toNat : Int) / 2 ^ 64 < 2 ^ 64 := by
    have := div_lt_64 x.toNat x.isLt
    exact ⟨by positivity, by exact_mod_cast this⟩
  have h2 : (0 : Int) ≤ (x.toNat : Int) % 2 ^ 64 ∧ (x.toNat : Int) % 2 ^ 64 < 2 ^ 64 := by
    have := Nat.mod_lt x.toNat (Nat.two_pow_pos 64)
    exact ⟨Int.emod_nonneg _ (by norm_num), by exact_mod_cast this⟩
  rw [split128, asNp64, if_pos h1, Res.ok_bind, asNp64, if_pos h2, Res.ok_bind, Res.pure_eq, ofInt_div, ofInt_mod, join128]

/-! ### Reasoning about accepted assignments -/

/-- From a state in `P`, a run that succeeds ends in `Q`. -/
def Hoare (P : σ → Prop) (m : SetM σ α) (Q : σ → Prop) : Prop := ∀ s a s', P s → m s = (.ok a, s') → Q s'

theorem Hoare.bind {P Q R : σ → Prop} {m : SetM σ α} {f : α → SetM σ β} (h1 : Hoare P m Q) (h2 : ∀ a, Hoare Q (f a) R) :
    Hoare P (m >>= f) R := by
  intro s b s' hp h
  rw [SetM.bind_run] at h
  cases hm : m s with
  | mk r u =>
    rw [hm] at h
    cases r with
    | ok a => exact h2 a u b s' (h1 s a u hp hm) h
    | err e => simp at h
    | ub => simp at h

theorem Hoare.lift {P : σ → Prop} (r : Res α) : Hoare P (SetM.lift r) P := by
  intro s a s' hp h
  rw [SetM.lift_run] at h
  obtain ⟨-, rfl⟩ := Prod.mk.injEq .. ▸ h
  exact hp

theorem Hoare.modify {P Q : σ → Prop} (f : σ → σ) (h : ∀ s, P s → Q (f s)) : Hoare P (SetM.modify f) Q := by
  intro s a s' hp e
  rw [SetM.modify_run] at e
  obtain ⟨-, rfl⟩ := Prod.mk.injEq .. ▸ e
  exact h s hp

theorem Hoare.store {P Q : σ → Prop} (r : Res α) (f : α → σ → σ) (h : ∀ a s, r = .ok a → P s → Q (f a s)) : Hoare P (SetM.store r f) Q := by
  intro s a s' hp e
  cases r with
  | ok b =>
    rw [SetM.store_ok] at e
    obtain ⟨-, rfl⟩ := Prod.mk.injEq .. ▸ e
    exact h b s rfl hp
  | err _ => rw [SetM.store_err] at e; simp at e
  | ub => rw [SetM.store_ub] at e; simp at e

theorem Hoare.weaken {P Q R : σ → Prop} {m : SetM σ α} (h : Hoare P m R) (hq : ∀ s, Q s → P s) : Hoare Q m R :=
  fun s a s' hp e => h s a s' (hq s hp) e

/-- Skipping a step whose effect does not matter. -/
theorem Hoare.skip {R : σ → Prop} {m : SetM σ α} {f : α → SetM σ β} (h : ∀ a, Hoare (fun _ => True) (f a) R) {P : σ → Prop} :
    Hoare P (m >>= f) R := Hoare.bind (Q := fun _ => True) (fun _ _ _ _ _ => trivial) h

end Verif
