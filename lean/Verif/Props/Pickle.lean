import Verif.Model.Api
import Mathlib.Data.List.Nodup

/-! C49: pickled generators are rebuilt by the class that wrote them. -/

namespace Verif

/-! ### C49 -/

theorem Cls.mem_all (c : Cls) : c ∈ Cls.all := by cases c <;> decide

/-- A number for every string, so that names are compared once and cheaply. -/
def strCode (s : String) : Nat := s.toList.foldl (fun a c => a * 256 + c.toNat) 1

theorem codes_nodup :
    ((Cls.all.map fun c => strCode c.name) ++ (Cls.all.map fun c => strCode c.qualified)).Nodup := by decide +kernel

/-- The 54 names are pairwise different. -/
theorem Cls.names_distinct (c c' : Cls) :
    c.name ≠ c'.qualified ∧ (c.name = c'.name → c = c') ∧ (c.qualified = c'.qualified → c = c') := by
  obtain ⟨h1, h2, h3⟩ := List.nodup_append.1 codes_nodup
  refine ⟨fun e => ?_, fun e => ?_, fun e => ?_⟩
  · exact h3 _ (List.mem_map.2 ⟨c, mem_all c, rfl⟩) _ (List.mem_map.2 ⟨c', mem_all c', rfl⟩) (congrArg strCode e)
  · exact List.inj_on_of_nodup_map h1 (mem_all c) (mem_all c') (congrArg strCode e)
  · exact List.inj_on_of_nodup_map h2 (mem_all c) (mem_all c') (congrArg strCode e)

theorem Registry.get?_set {κ : Type} (d : Registry κ) (k k' : String) (v : κ) :
    (d.set k v).get? k' = if k = k' then some v else d.get? k' := by
  induction d with
  | nil => simp [Registry.set, Registry.get?]
  | cons e r ih =>
    obtain ⟨k0, v0⟩ := e
    simp only [Registry.set]
    by_cases h : k0 = k
    · subst h
      simp only [if_true, Registry.get?]
      split <;> rfl
    · simp only [h, if_false, Registry.get?, ih]
      by_cases h0 : k0 = k'
      · subst h0
        simp [Ne.symm h]
      · simp [h0]

theorem base_get (cs : List Cls) (k : String) (c : Cls) :
    Registry.get? (cs.map fun c => (c.name, c)) k = some c ↔ c ∈ cs ∧ k = c.name := by
  induction cs with
  | nil => simp [Registry.get?]
  | cons c0 cs ih =>
    simp only [List.map_cons, Registry.get?]
    by_cases h : c0.name = k
    · subst h
      simp only [if_true, Option.some.injEq]
      constructor
      · rintro rfl; exact ⟨by simp, rfl⟩
      · rintro ⟨_, e⟩; exact (Cls.names_distinct c0 c).2.1 e
    · simp only [h, if_false, ih, List.mem_cons]
      constructor
      · rintro ⟨h1, h2⟩; exact ⟨Or.inr h1, h2⟩
      · rintro ⟨rfl | h1, h2⟩
        · exact absurd h2.symm h
        · exact ⟨h1, h2⟩

theorem qualFold_get (cs : List Cls) (d : Registry Cls) (k : String) (c : Cls) :
    (cs.foldl (fun d c => d.set c.qualified c) d).get? k = some c ↔
      (c ∈ cs ∧ k = c.qualified) ∨ ((∀ c' ∈ cs, k ≠ c'.qualified) ∧ d.get? k = some c) := by
  induction cs generalizing d with
  | nil => simp
  | cons c0 cs ih =>
    rw [List.foldl_cons, ih, Registry.get?_set]
    by_cases h : c0.qualified = k
    · subst h
      simp only [if_true, Option.some.injEq, List.mem_cons]
      constructor
      · rintro (⟨h1, h2⟩ | ⟨h1, rfl⟩)
        · exact Or.inl ⟨Or.inr h1, h2⟩
        · exact Or.inl ⟨Or.inl rfl, rfl⟩
      · rintro (⟨h1, h2⟩ | ⟨h1, h2⟩)
        · have := (Cls.names_distinct c0 c).2.2 h2
          subst this
          by_cases hm : c0 ∈ cs
          · exact Or.inl ⟨hm, rfl⟩
          · refine Or.inr ⟨fun c' hc' e => ?_, rfl⟩
            exact hm ((Cls.names_distinct c0 c').2.2 e ▸ hc')
        · exact absurd rfl (h1 c0 (Or.inl rfl))
    · simp only [h, if_false, List.mem_cons]
      constructor
      · rintro (⟨h1, h2⟩ | ⟨h1, h2⟩)
        · exact Or.inl ⟨Or.inr h1, h2⟩
        · refine Or.inr ⟨?_, h2⟩
          rintro c' (rfl | hc')
          · exact Ne.symm h
          · exact h1 c' hc'
      · rintro (⟨rfl | h1, h2⟩ | ⟨h1, h2⟩)
        · exact absurd h2.symm h
        · exact Or.inl ⟨h1, h2⟩
        · exact Or.inr ⟨fun c' hc' => h1 c' (Or.inr hc'), h2⟩

theorem pickle_get (k : String) (c : Cls) :
    pickleRegistry.get? k = some c ↔ c ≠ .UserBitGenerator ∧ (k = c.qualified ∨ k = c.name) := by
  have hmem : ∀ c, c ∈ Cls.all.filter (· ≠ .UserBitGenerator) ↔ c ≠ .UserBitGenerator := by
    intro c; simp [Cls.mem_all]
  have hv : pickleBase.map Prod.snd = Cls.all.filter (· ≠ .UserBitGenerator) := by
    rw [pickleBase, List.map_map]; exact List.map_id _
  rw [pickleRegistry, hv, qualFold_get]
  unfold pickleBase
  rw [base_get, hmem]
  constructor
  · rintro (⟨h1, h2⟩ | ⟨_, h1, h2⟩)
    · exact ⟨h1, Or.inl h2⟩
    · exact ⟨h1, Or.inr h2⟩
  · rintro ⟨h1, rfl | rfl⟩
    · exact Or.inl ⟨h1, rfl⟩
    · exact Or.inr ⟨fun c' _ => (Cls.names_distinct c c').1, h1, rfl⟩

/-- C49: a string given as `str` resolves to a class exactly when it is the qualified name, which the state of every
instance carries, or the short name of that class. Since the left side determines the class, no name is shared. The only
class of the package without entry is `UserBitGenerator`. -/
theorem C49_names (s : String) (c : Cls) :
    ctorClass (.str s) = .ok c ↔ c ≠ .UserBitGenerator ∧ (s = c.qualified ∨ s = c.name) := by
  rw [← pickle_get]
  have e : ctorClass (.str s) = getBitGenerator s := rfl
  rw [e, getBitGenerator]
  split
  · rename_i c' hc'; rw [hc']; simp
  · rename_i hn; rw [hn]; simp

/-- C49, unknown names are rejected: `UserBitGenerator` among them. -/
theorem C49_unknown (s : String) :
    ctorClass (.str s) = .error .value ↔ ∀ c : Cls, c ≠ .UserBitGenerator → s ≠ c.qualified ∧ s ≠ c.name := by
  have e : ctorClass (.str s) = getBitGenerator s := rfl
  rw [e, getBitGenerator]
  split
  · rename_i c hc
    obtain ⟨h1, h2⟩ := (pickle_get s c).1 hc
    simp only [reduceCtorEq, false_iff, not_forall]
    exact ⟨c, h1, fun h => h2.elim h.1 h.2⟩
  · rename_i hn
    simp only [true_iff]
    intro c hc
    constructor
    · intro h
      rw [(pickle_get s c).2 ⟨hc, Or.inl h⟩] at hn
      exact absurd hn (by simp)
    · intro h
      rw [(pickle_get s c).2 ⟨hc, Or.inr h⟩] at hn
      exact absurd hn (by simp)

example : ctorClass (.str "randomgen.xoshiro256.Xoshiro256") = .ok .Xoshiro256 ∧
    ctorClass (.str "PCG64DXSM") = .ok .PCG64DXSM :=
  ⟨(C49_names _ _).2 ⟨by decide, Or.inl (by decide +kernel)⟩, (C49_names _ _).2 ⟨by decide, Or.inr rfl⟩⟩

/-- ASCII bytes of a string. -/
def asciiBytes (s : String) : List (BitVec 8) := s.toList.map fun c => BitVec.ofNat 8 c.toNat

/-- C49, names given as `bytes`: the ASCII encoding of a string means the string. -/
theorem C49_bytes (s : String) (h : ∀ c ∈ s.toList, c.toNat < 128) :
    ctorClass (.bytes (asciiBytes s)) = ctorClass (.str s) := by
  have hd : decodeName (.bytes (asciiBytes s)) = .ok s := by
    have h1 : (asciiBytes s).all (fun x => x.toNat < 128) = true := by
      simp only [asciiBytes, List.all_eq_true, List.mem_map, decide_eq_true_eq]
      rintro x ⟨c, hc, rfl⟩
      have := h c hc
      rw [BitVec.toNat_ofNat, Nat.mod_eq_of_lt (by omega)]
      exact this
    have h2 : ((asciiBytes s).map fun x => Char.ofNat x.toNat) = s.toList := by
      rw [asciiBytes, List.map_map]
      conv_rhs => rw [← List.map_id s.toList]
      apply List.map_congr_left
      intro c hc
      have := h c hc
      simp only [Function.comp, BitVec.toNat_ofNat, id]
      rw [Nat.mod_eq_of_lt (by omega), Char.ofNat_toNat]
    rw [decodeName, if_pos h1, h2, String.ofList_toList]
  simp only [ctorClass, hd]
  rfl

example (c : Cls) : ∀ x ∈ c.qualified.toList, x.toNat < 128 := by
  rw [Cls.qualified, String.toList_append, String.toList_append]
  have h : ∀ c ∈ Cls.all, (∀ x ∈ c.mod.toList, x.toNat < 128) ∧ (∀ x ∈ c.name.toList, x.toNat < 128) := by decide +kernel
  obtain ⟨h1, h2⟩ := h c (Cls.mem_all c)
  have h3 : ∀ x ∈ ".".toList, x.toNat < 128 := by decide +kernel
  intro x hx
  simp only [List.mem_append] at hx
  rcases hx with (hx | hx) | hx
  · exact h1 x hx
  · exact h3 x hx
  · exact h2 x hx

/-- Bytes outside ASCII are rejected whatever they contain. -/
theorem C49_non_ascii (b : List (BitVec 8)) (h : ∃ x ∈ b, 128 ≤ x.toNat) : ctorClass (.bytes b) = .error .value := by
  have : ¬ (b.all (fun x => x.toNat < 128)) = true := by
    simp only [List.all_eq_true, decide_eq_true_eq]
    intro h'
    obtain ⟨x, hx, hx'⟩ := h
    exact absurd (h' x hx) (by omega)
  simp only [ctorClass, decodeName, if_neg this]
  rfl

theorem registerOne_get {κ : Type} (inj : Cls → κ) (d : Registry κ) (c : Cls) (k : String) :
    (registerOne inj d c).get? k =
      if c.qualified = k then some (inj c) else if c.name = k then some ((d.get? k).getD (inj c)) else d.get? k := by
  rw [registerOne, Registry.get?_set]
  by_cases h1 : c.qualified = k
  · simp [h1]
  · simp only [h1, if_false]
    cases hg : d.get? c.name with
    | none =>
      simp only [Registry.get?_set]
      by_cases h2 : c.name = k
      · subst h2; simp [hg]
      · simp [h2]
    | some v =>
      by_cases h2 : c.name = k
      · subst h2; simp [hg]
      · simp [h2]

theorem registerFold_get {κ : Type} (inj : Cls → κ) (cs : List Cls) (hn : cs.Nodup) (d : Registry κ) :
    (∀ c ∈ cs, (cs.foldl (registerOne inj) d).get? c.qualified = some (inj c)) ∧
    (∀ c ∈ cs, (cs.foldl (registerOne inj) d).get? c.name = some ((d.get? c.name).getD (inj c))) ∧
    (∀ k, (∀ c ∈ cs, k ≠ c.qualified ∧ k ≠ c.name) → (cs.foldl (registerOne inj) d).get? k = d.get? k) := by
  induction cs generalizing d with
  | nil => simp
  | cons c cs ih =>
    obtain ⟨hc, hn'⟩ := List.nodup_cons.1 hn
    obtain ⟨i1, i2, i3⟩ := ih hn' (registerOne inj d c)
    refine ⟨fun c' hc' => ?_, fun c' hc' => ?_, fun k hk => ?_⟩ <;> rw [List.foldl_cons]
    · rcases List.mem_cons.1 hc' with rfl | hm
      · rw [i3, registerOne_get, if_pos rfl]
        intro c'' h''
        exact ⟨fun e => hc ((Cls.names_distinct c' c'').2.2 e ▸ h''), fun e => (Cls.names_distinct c'' c').1 e.symm⟩
      · exact i1 c' hm
    · rcases List.mem_cons.1 hc' with rfl | hm
      · rw [i3, registerOne_get, if_neg (Ne.symm (Cls.names_distinct c' c').1), if_pos rfl]
        intro c'' h''
        exact ⟨(Cls.names_distinct c' c'').1, fun e => hc ((Cls.names_distinct c' c'').2.1 e ▸ h'')⟩
      · rw [i2 c' hm, registerOne_get, if_neg (Ne.symm (Cls.names_distinct c' c).1),
          if_neg (fun e => hc ((Cls.names_distinct c c').2.1 e ▸ hm))]
    · rw [i3 k (fun c' h' => hk c' (List.mem_cons_of_mem _ h')), registerOne_get,
        if_neg (Ne.symm (hk c (by simp)).1), if_neg (Ne.symm (hk c (by simp)).2)]

/-- C49 for NumPy's registry, whatever it contained (`registerAll` is the import of `randomgen._register`): the
qualified name of every class leads to that class; a short name leads to it unless the name was taken, in which case the
old entry stays; all other names are untouched. So a state written by randomgen's `PCG64` (qualified name) is not
rebuilt with NumPy's `PCG64`. -/
theorem C49_register {κ : Type} (inj : Cls → κ) (d : Registry κ) :
    (∀ c : Cls, (registerAll inj d).get? c.qualified = some (inj c)) ∧
    (∀ c : Cls, (registerAll inj d).get? c.name = some ((d.get? c.name).getD (inj c))) ∧
    (∀ k, (∀ c : Cls, k ≠ c.qualified ∧ k ≠ c.name) → (registerAll inj d).get? k = d.get? k) := by
  have hn : registerOrder.Nodup := by decide
  have hall : ∀ c : Cls, c ∈ registerOrder := by intro c; cases c <;> decide
  obtain ⟨h1, h2, h3⟩ := registerFold_get inj registerOrder hn d
  exact ⟨fun c => h1 c (hall c), fun c => h2 c (hall c), fun k hk => h3 k fun c _ => hk c⟩

example : (registerAll (fun c => (c, true)) [("PCG64", (Cls.PCG64, false))]).get? "PCG64" = some (Cls.PCG64, false) :=
  (C49_register _ _).2.1 .PCG64

end Verif
