import Verif.Model.PyState

/-! The `state` getters and setters of the bit generators: one record per class holding everything a draw depends on, a
getter and a setter, store by store.

Besides the C structure the record holds the class's own attributes (`variant`, `original`, …) and, as `act…`, which
draw functions are installed in `self._bitgen`: these are chosen by a separate method, and a setter that forgets to call it
keeps drawing with the old functions. `int` fields are kept as their 32 bits. Arrays are `Vector`s. The loops that copy a
checked array cannot fail and are one store here. Seed sequences are not part of the state. -/

namespace Verif

open SetM

/-- The last two entries of most dictionaries. -/
def halfEntries (has : U32) (uint : U32) : List (String × PyVal) := [("has_uint32", pyI has), ("uinteger", pyU uint)]

/-! ### Xoshiro256, Xoshiro512 -/

/-- `xoshiro256_state_t` (xoshiro256.h:6-10), `xoshiro512_state_t` (xoshiro512.h:6-11). -/
structure XoshI (n : Nat) where
  s : Vector U64 n
  has : U32
  uint : U32
  deriving DecidableEq

/-- xoshiro256.pyx:248-256, xoshiro512.pyx:245-251 -/
def xoshGet {n : Nat} (name : String) (x : XoshI n) : PyVal :=
  mkDict ([("bit_generator", .str name), ("s", pyArr x.s)] ++ halfEntries x.has x.uint)

/-- xoshiro256.pyx:259-272, xoshiro512.pyx:254-265 -/
def xoshSet {n : Nat} (short full : String) (v : PyVal) : SetM (XoshI n) Unit := do
  lift (header short full v)
  store (do checkStateArray (← v.item "s") n 64) fun a s => { s with s := a }
  store (do asInt (← v.item "has_uint32")) fun a s => { s with has := a }
  store (do asU 32 (← v.item "uinteger")) fun a s => { s with uint := a }

/-! ### Xorshift1024 -/

/-- `xorshift1024_state_t` (xorshift1024.h:6-11). -/
structure Xs1024I where
  s : Vector U64 16
  p : U32
  has : U32
  uint : U32
  deriving DecidableEq

/-- xorshift1024.pyx:248-254 -/
def xs1024Get (x : Xs1024I) : PyVal :=
  mkDict ([("bit_generator", .str "randomgen.xorshift1024.Xorshift1024"),
    ("state", mkDict [("s", pyArr x.s), ("p", pyI x.p)])] ++ halfEntries x.has x.uint)

/-- xorshift1024.pyx:257-269 -/
def xs1024Set (v : PyVal) : SetM Xs1024I Unit := do
  lift (header "Xorshift1024" "randomgen.xorshift1024.Xorshift1024" v)
  store (do checkStateArray (← v.item2 "state" "s") 16 64) fun a s => { s with s := a }
  store (do asInt (← v.item2 "state" "p")) fun a s => { s with p := a }
  store (do asInt (← v.item "has_uint32")) fun a s => { s with has := a }
  store (do asU 32 (← v.item "uinteger")) fun a s => { s with uint := a }

/-! ### Xoroshiro128 -/

/-- `xoroshiro128_state_t` (xoroshiro128.h:6-11), `_plusplus` and the installed functions. -/
structure XoroI where
  s : Vector U64 2
  has : U32
  uint : U32
  plusplus : Bool
  actPlusplus : Bool
  deriving DecidableEq

/-- xoroshiro128.pyx:272-279 -/
def xoroGet (x : XoroI) : PyVal :=
  mkDict ([("bit_generator", .str "randomgen.xoroshiro128.Xoroshiro128"), ("s", pyArr x.s),
    ("plusplus", .bool x.plusplus)] ++ halfEntries x.has x.uint)

/-- `"plusplus" in value`, then `value["plusplus"]` (xoroshiro128.pyx:294-296) -/
def getD (v : PyVal) (k : String) (d : PyVal) : PyVal := match v with
  | .dict f => (f k).getD d
  | _ => d

/-- xoroshiro128.pyx:282-298, `_set_generators` :138-148 -/
def xoroSet (v : PyVal) : SetM XoroI Unit := do
  lift (header "Xoroshiro128" "randomgen.xoroshiro128.Xoroshiro128" v)
  store (do checkStateArray (← v.item "s") 2 64) fun a s => { s with s := a }
  store (do asInt (← v.item "has_uint32")) fun a s => { s with has := a }
  store (do asU 32 (← v.item "uinteger")) fun a s => { s with uint := a }
  store (asBool (getD v "plusplus" (.bool false))) fun a s => { s with plusplus := a }
  modify fun s => { s with actPlusplus := s.plusplus }

/-! ### LXM -/

/-- `lxm_state_t` (lxm.h:12-18). -/
structure LxmI where
  x : Vector U64 4
  lcg : U64
  b : U64
  has : U32
  uint : U32
  deriving DecidableEq

/-- lxm.pyx:264-273 -/
def lxmGet (x : LxmI) : PyVal :=
  mkDict ([("bit_generator", .str "randomgen.lxm.LXM"),
    ("state", mkDict [("x", pyArr x.x), ("lcg_state", pyU x.lcg), ("b", pyU x.b)])] ++ halfEntries x.has x.uint)

/-- lxm.pyx:276-289 -/
def lxmSet (v : PyVal) : SetM LxmI Unit := do
  lift (header "LXM" "randomgen.lxm.LXM" v)
  store (do checkStateArray (← v.item2 "state" "x") 4 64) fun a s => { s with x := a }
  store (do asU 64 (← v.item2 "state" "lcg_state")) fun a s => { s with lcg := a }
  store (do asU 64 (← v.item2 "state" "b")) fun a s => { s with b := a }
  store (do asInt (← v.item "has_uint32")) fun a s => { s with has := a }
  store (do asU 32 (← v.item "uinteger")) fun a s => { s with uint := a }

/-! ### SFC64 -/

/-- `sfc_state_t` (sfc.h:34-42). -/
structure SfcI where
  a : U64
  b : U64
  c : U64
  w : U64
  k : U64
  has : U32
  uint : U32
  deriving DecidableEq

/-- sfc.pyx:344-352 -/
def sfcGet (x : SfcI) : PyVal :=
  mkDict ([("bit_generator", .str "randomgen.sfc.SFC64"),
    ("state", mkDict [("a", pyU x.a), ("b", pyU x.b), ("c", pyU x.c), ("w", pyU x.w), ("k", pyU x.k)])] ++ halfEntries x.has x.uint)

/-- sfc.pyx:355-368 -/
def sfcSet (v : PyVal) : SetM SfcI Unit := do
  lift (header "SFC64" "randomgen.sfc.SFC64" v)
  store (do asU 64 (← v.item2 "state" "a")) fun a s => { s with a := a }
  store (do asU 64 (← v.item2 "state" "b")) fun a s => { s with b := a }
  store (do asU 64 (← v.item2 "state" "c")) fun a s => { s with c := a }
  store (do asU 64 (← v.item2 "state" "w")) fun a s => { s with w := a }
  store (do asU 64 (← v.item2 "state" "k")) fun a s => { s with k := a }
  store (do asInt (← v.item "has_uint32")) fun a s => { s with has := a }
  store (do asU 32 (← v.item "uinteger")) fun a s => { s with uint := a }

/-! ### Romu -/

/-- `romu_state_t` (romu.h:33-40), `variant` and the installed functions. -/
structure RomuI where
  w : U64
  x : U64
  y : U64
  z : U64
  has : U32
  uint : U32
  variant : String
  actQuad : Bool
  deriving DecidableEq

/-- `str.lower` on ASCII strings. -/
def pyLower (s : String) : String := String.ofList (s.toList.map Char.toLower)

/-- romu.pyx:171-179 -/
def romuGet (x : RomuI) : PyVal :=
  mkDict ([("bit_generator", .str "randomgen.romu.Romu"),
    ("state", mkDict [("w", pyU x.w), ("x", pyU x.x), ("y", pyU x.y), ("z", pyU x.z), ("variant", .str x.variant)])] ++ halfEntries x.has x.uint)

/-- `_check_variant` (romu.pyx:114-119) -/
def romuCheck (v : PyVal) : Res String := match v with
  | .str s => if pyLower s = "quad" ∨ pyLower s = "trio" then .ok (pyLower s) else .err .valueError
  | _ => .err .typeError

/-- romu.pyx:182-196, `_setup_bitgen` :102-112 -/
def romuSet (v : PyVal) : SetM RomuI Unit := do
  lift (header "Romu" "randomgen.romu.Romu" v)
  store (do asU 64 (← v.item2 "state" "w")) fun a s => { s with w := a }
  store (do asU 64 (← v.item2 "state" "x")) fun a s => { s with x := a }
  store (do asU 64 (← v.item2 "state" "y")) fun a s => { s with y := a }
  store (do asU 64 (← v.item2 "state" "z")) fun a s => { s with z := a }
  store (do romuCheck (← v.item2 "state" "variant")) fun a s => { s with variant := a }
  store (do asInt (← v.item "has_uint32")) fun a s => { s with has := a }
  store (do asU 32 (← v.item "uinteger")) fun a s => { s with uint := a }
  modify fun s => { s with actQuad := s.variant == "quad" }

/-! ### Tyche -/

/-- `tyche_state_t` (tyche.h:33-38), `original` and the installed functions. -/
structure TycheI where
  a : U32
  b : U32
  c : U32
  d : U32
  original : Bool
  actOriginal : Bool
  deriving DecidableEq

/-- tyche.pyx:180-186 -/
def tycheGet (x : TycheI) : PyVal :=
  mkDict [("bit_generator", .str "randomgen.tyche.Tyche"),
    ("state", mkDict [("a", pyU x.a), ("b", pyU x.b), ("c", pyU x.c), ("d", pyU x.d), ("original", .bool x.original)])]

/-- tyche.pyx:189-202, `_setup_bitgen` :117-127 -/
def tycheSet (v : PyVal) : SetM TycheI Unit := do
  lift (header "Tyche" "randomgen.tyche.Tyche" v)
  let st ← lift (v.item "state")
  store (do asBool (← st.item "original")) fun a s => { s with original := a }
  store (do asU 32 (← st.item "a")) fun a s => { s with a := a }
  store (do asU 32 (← st.item "b")) fun a s => { s with b := a }
  store (do asU 32 (← st.item "c")) fun a s => { s with c := a }
  store (do asU 32 (← st.item "d")) fun a s => { s with d := a }
  modify fun s => { s with actOriginal := s.original }

/-! ### JSF -/

/-- `jsf_state_t` (jsf.h:39-49): the words are unions of 64 and 32 bits, the latter the low half (little endian).
`size`, `seed_size` and the installed functions. -/
structure JsfI where
  a : U64
  b : U64
  c : U64
  d : U64
  p : U32
  q : U32
  r : U32
  has : U32
  uint : U32
  size : U32
  seedSize : U32
  act64 : Bool
  deriving DecidableEq

/-- Assignment to the `u32` member of a union. -/
def setLow (old : U64) (x : U32) : U64 := ((old >>> 32) <<< 32) ||| x.zeroExtend 64

/-- jsf.pyx:282-300 -/
def jsfGet (x : JsfI) : PyVal :=
  let word := fun (y : U64) => if x.size = 64 then pyU y else pyU (y.truncate 32)
  mkDict [("bit_generator", .str "randomgen.jsf.JSF"),
    ("state", mkDict [("a", word x.a), ("b", word x.b), ("c", word x.c), ("d", word x.d), ("p", pyI x.p), ("q", pyI x.q), ("r", pyI x.r)]),
    ("size", pyI x.size), ("has_uint32", pyI x.has), ("uinteger", pyU x.uint), ("seed_size", pyI x.seedSize)]

/-- `p if p is not None else JSF_DEFAULTS[self.size]["p"]` (jsf.pyx:224-226, defaults :11-12); other sizes are missing
in the table. -/
def jsfPar (v : PyVal) (size : U32) (d64 d32 : Int) : Res U32 := match v with
  | .none => if size = 64 then asInt (.int d64) else if size = 32 then asInt (.int d32) else .err .keyError
  | v => asInt v

/-- jsf.pyx:303-326, `setup_generator` :213-226 -/
def jsfSet (v : PyVal) : SetM JsfI Unit := do
  lift (header "JSF" "randomgen.jsf.JSF" v)
  store (do asInt (← v.item "size")) fun a s => { s with size := a }
  let st ← lift (v.item "state")
  let p ← lift (st.item "p")
  let q ← lift (st.item "q")
  let r ← lift (st.item "r")
  modify fun s => { s with act64 := s.size == 64 }
  let size := (← read).size
  store (jsfPar p size 7 27) fun a s => { s with p := a }
  store (jsfPar q size 13 17) fun a s => { s with q := a }
  store (jsfPar r size 37 0) fun a s => { s with r := a }
  if size = 64 then
    store (do asU 64 (← st.item "a")) fun a s => { s with a := a }
    store (do asU 64 (← st.item "b")) fun a s => { s with b := a }
    store (do asU 64 (← st.item "c")) fun a s => { s with c := a }
    store (do asU 64 (← st.item "d")) fun a s => { s with d := a }
  else
    store (do asU 32 (← st.item "a")) fun a s => { s with a := setLow s.a a }
    store (do asU 32 (← st.item "b")) fun a s => { s with b := setLow s.b a }
    store (do asU 32 (← st.item "c")) fun a s => { s with c := setLow s.c a }
    store (do asU 32 (← st.item "d")) fun a s => { s with d := setLow s.d a }
  store (do asInt (← v.item "has_uint32")) fun a s => { s with has := a }
  store (do asU 32 (← v.item "uinteger")) fun a s => { s with uint := a }
  store (do asInt (← v.item "seed_size")) fun a s => { s with seedSize := a }

/-! ### EFIIX64 -/

/-- `efiix64_state_t` (efiix64.h:19-25). -/
structure EfiixI where
  ind : Vector U64 16
  itr : Vector U64 32
  i : U64
  a : U64
  b : U64
  c : U64
  has : U32
  uint : U32
  deriving DecidableEq

/-- efiix64.pyx:164-183 -/
def efiixGet (x : EfiixI) : PyVal :=
  mkDict ([("bit_generator", .str "randomgen.efiix64.EFIIX64"),
    ("state", mkDict [("indirection_table", pyArr x.ind), ("iteration_table", pyArr x.itr), ("i", pyU x.i), ("a", pyU x.a), ("b", pyU x.b), ("c", pyU x.c)])] ++ halfEntries x.has x.uint)

/-- efiix64.pyx:186-219 -/
def efiixSet (v : PyVal) : SetM EfiixI Unit := do
  lift (header "EFIIX64" "randomgen.efiix64.EFIIX64" v)
  let st ← lift (v.item "state")
  store (do checkStateArray (← st.item "indirection_table") 16 64) fun a s => { s with ind := a }
  store (do checkStateArray (← st.item "iteration_table") 32 64) fun a s => { s with itr := a }
  store (do asU 64 (← st.item "i")) fun a s => { s with i := a }
  store (do asU 64 (← st.item "a")) fun a s => { s with a := a }
  store (do asU 64 (← st.item "b")) fun a s => { s with b := a }
  store (do asU 64 (← st.item "c")) fun a s => { s with c := a }
  store (do asInt (← v.item "has_uint32")) fun a s => { s with has := a }
  store (do asU 32 (← v.item "uinteger")) fun a s => { s with uint := a }

/-! ### PCG32 -/

/-- `pcg32_random_t` (pcg32.h). -/
structure Pcg32I where
  state : U64
  inc : U64
  deriving DecidableEq

/-- pcg32.pyx:164-166 -/
def pcg32Get (x : Pcg32I) : PyVal :=
  mkDict [("bit_generator", .str "randomgen.pcg32.PCG32"), ("state", mkDict [("state", pyU x.state), ("inc", pyU x.inc)])]

/-- pcg32.pyx:169-177 -/
def pcg32Set (v : PyVal) : SetM Pcg32I Unit := do
  lift (header "PCG32" "randomgen.pcg32.PCG32" v)
  store (do asU 64 (← v.item2 "state" "state")) fun a s => { s with state := a }
  store (do asU 64 (← v.item2 "state" "inc")) fun a s => { s with inc := a }

/-! ### PCG64, PCG64DXSM -/

/-- `pcg64_state_t` (pcg64-v2.h:102-107), the attributes `variant`, `use_dxsm`, `cheap_multiplier` and the installed
functions. -/
structure Pcg64I where
  state : U128
  inc : U128
  cDxsm : U32
  has : U32
  uint : U32
  variant : String
  useDxsm : Bool
  cheap : Bool
  actCheap : Bool
  deriving DecidableEq

/-- A 128-bit number as `high * 2**64 + low` (pcg64.pyx:320-321). -/
def pyU128 (x : U128) : PyVal := .int ((x >>> 64).toNat * 2 ^ 64 + (x.truncate 64 : U64).toNat)

/-- pcg64.pyx:310-326 -/
def pcg64Get (x : Pcg64I) : PyVal :=
  mkDict ([("bit_generator", .str "randomgen.pcg64.PCG64"),
    ("state", mkDict [("state", pyU128 x.state), ("inc", pyU128 x.inc)]), ("variant", .str x.variant)] ++ halfEntries x.has x.uint)

/-- pcg64.pyx:1091-1097: no `variant`. -/
def pcg64DxsmGet (x : Pcg64I) : PyVal :=
  mkDict ([("bit_generator", .str "randomgen.pcg64.PCG64DXSM"),
    ("state", mkDict [("state", pyU128 x.state), ("inc", pyU128 x.inc)])] ++ halfEntries x.has x.uint)

/-- `_setup_rng_state` (pcg64.pyx:198-220) -/
def pcg64Setup (s : Pcg64I) : Pcg64I :=
  let s := { s with useDxsm := false, cheap := false }
  let s :=
    if s.variant ∈ ["dxsm", "2.0", "2", "cm-dxsm", "cmdxsm"] then { s with useDxsm := true, cheap := true, variant := "dxsm" }
    else if s.variant ∈ ["dxsm-128", "dxsm128"] then { s with useDxsm := true, variant := "dxsm-128" }
    else { s with variant := "xsl-rr" }
  { s with actCheap := s.cheap }

/-- `vec[0] = x // 2**64; vec[1] = x % 2**64` and `PCG_128BIT_CONSTANT` -/
def split128 (x : Int) : Res U128 := do
  let hi ← asNp64 (x / 2 ^ 64)
  let lo ← asNp64 (x % 2 ^ 64)
  pure (hi.zeroExtend 128 <<< 64 ||| lo.zeroExtend 128)

/-- Assignment to the attribute `cdef readonly str variant`; `None` is accepted by Cython and read as a foreign name. -/
def asStr (v : PyVal) : Res String := match v with
  | .str s => .ok s
  | .none => .ok "None"
  | _ => .err .typeError

/-- pcg64.pyx:329-354, `pcg64_set_state` pcg64-v2.c:57-70. The default of `variant` is `"1.0"`. -/
def pcg64Set (v : PyVal) : SetM Pcg64I Unit := do
  lift (header "PCG64" "randomgen.pcg64.PCG64" v)
  let state ← lift (do pyInt (← v.item2 "state" "state"))
  let inc ← lift (do pyInt (← v.item2 "state" "inc"))
  let state ← lift (split128 state)
  let inc ← lift (split128 inc)
  let has ← lift (do asInt (← v.item "has_uint32"))
  let uint ← lift (do asU 32 (← v.item "uinteger"))
  store (asStr (getD v "variant" (.str "1.0"))) fun a s => { s with variant := a }
  modify pcg64Setup
  modify fun s => { s with state := state, inc := inc, cDxsm := if s.useDxsm then 1 else 0, has := has, uint := uint }

/-- pcg64.pyx:1100-1125 -/
def pcg64DxsmSet (v : PyVal) : SetM Pcg64I Unit := do
  lift (header "PCG64DXSM" "randomgen.pcg64.PCG64DXSM" v)
  let state ← lift (do pyInt (← v.item2 "state" "state"))
  let inc ← lift (do pyInt (← v.item2 "state" "inc"))
  let state ← lift (split128 state)
  let inc ← lift (split128 inc)
  let has ← lift (do asInt (← v.item "has_uint32"))
  let uint ← lift (do asU 32 (← v.item "uinteger"))
  modify fun s => { s with variant := "dxsm" }
  modify pcg64Setup
  modify fun s => { s with state := state, inc := inc, cDxsm := if s.useDxsm then 1 else 0, has := has, uint := uint }

/-! ### LCG128Mix -/

/-- `lcg128mix_random_t` (lcg128mix.h:6-14), the buffered half and the attribute `_cfunc`. -/
structure LcgMixI where
  state : U128
  inc : U128
  mult : U128
  dxsm : U64
  post : U32
  outputIdx : U32
  outputFunc : Nat
  has : U32
  uint : U32
  cfunc : Option Nat
  deriving DecidableEq

/-- `_output_lookup` (pcg64.pyx:636-640) -/
def outputLookup : List (String × U32) := [("xsl-rr", 0), ("dxsm", 1), ("murmur3", 2), ("upper", 3), ("lower", 4)]

/-- `_inv_output_lookup` (pcg64.pyx:641); a missing index raises. -/
def outputName (i : U32) : Option String := (outputLookup.find? fun p => p.2 == i).map Prod.fst

/-- pcg64.pyx:780-817; the lookup of an unknown index raises `KeyError`. -/
def lcgMixGet (x : LcgMixI) : Res PyVal :=
  let f : Res PyVal := match x.cfunc with
    | some a => .ok (.func a)
    | none => match outputName x.outputIdx with
      | some n => .ok (.str n)
      | none => .err .keyError
  do
    let f ← f
    pure (mkDict ([("bit_generator", .str "randomgen.pcg64.LCG128Mix"),
      ("state", mkDict [("state", pyU128 x.state), ("inc", pyU128 x.inc), ("multiplier", pyU128 x.mult), ("dxsm_multiplier", pyU x.dxsm),
        ("post", .bool (x.post != 0)), ("output_func", f)])] ++ halfEntries x.has x.uint))

/-- pcg64.pyx:820-868. An `output_func` that is neither a string nor a function is ignored. -/
def lcgMixSet (v : PyVal) : SetM LcgMixI Unit := do
  lift (header "LCG128Mix" "randomgen.pcg64.LCG128Mix" v)
  let state ← lift (do pyInt (← v.item2 "state" "state"))
  let inc ← lift (do pyInt (← v.item2 "state" "inc"))
  let mult ← lift (do pyInt (← v.item2 "state" "multiplier"))
  let state ← lift (split128 state)
  let inc ← lift (split128 inc)
  let mult ← lift (split128 mult)
  let has ← lift (v.item "has_uint32")
  let uint ← lift (v.item "uinteger")
  modify fun s => { s with state := state, inc := inc, mult := mult }
  store (asInt has) fun a s => { s with has := a }
  store (asU 32 uint) fun a s => { s with uint := a }
  store (do asU 64 (← v.item2 "state" "dxsm_multiplier")) fun a s => { s with dxsm := a }
  store (do asInt (← v.item2 "state" "post")) fun a s => { s with post := a }
  match ← lift (v.item2 "state" "output_func") with
  | .str n => store (match outputLookup.lookup n with | some i => Res.ok i | none => .err .keyError) fun a s => { s with outputIdx := a }
  | .func a => modify fun s => { s with cfunc := some a, outputIdx := BitVec.ofInt 32 (-1), outputFunc := a }
  | _ => pure ()

/-! ### MT19937, MT64 -/

/-- `mt19937_state_t` (mt19937.h:14-17). -/
structure Mt32I where
  key : Vector U32 624
  pos : U32
  deriving DecidableEq

/-- mt19937.pyx:290-295 -/
def mt32Get (x : Mt32I) : PyVal :=
  mkDict [("bit_generator", .str "randomgen.mt19937.MT19937"), ("state", mkDict [("key", pyArr x.key), ("pos", pyI x.pos)])]

/-- The conversion of a legacy tuple (mt19937.pyx:299-303). An empty tuple raises `IndexError`. -/
def mt32Legacy (v : PyVal) : Res PyVal := match v with
  | .tuple n f =>
    if n = 0 then .err .indexError
    else match f 0 with
      | .str "MT19937" =>
        if n = 3 ∨ n = 5 then .ok (mkDict [("bit_generator", .str "MT19937"), ("state", mkDict [("key", f 1), ("pos", f 2)])])
        else .err .valueError
      | _ => .err .valueError
  | v => .ok v

/-- mt19937.pyx:298-314 -/
def mt32Set (v : PyVal) : SetM Mt32I Unit := do
  let v ← lift (mt32Legacy v)
  lift (header "MT19937" "randomgen.mt19937.MT19937" v)
  store (do checkStateArray (← v.item2 "state" "key") 624 32) fun a s => { s with key := a }
  store (do asInt (← v.item2 "state" "pos")) fun a s => { s with pos := a }

/-- `mt64_state_t` (mt64.h:67-72). -/
structure Mt64I where
  mt : Vector U64 312
  mti : U32
  has : U32
  uint : U32
  deriving DecidableEq

/-- mt64.pyx:150-157 -/
def mt64Get (x : Mt64I) : PyVal :=
  mkDict ([("bit_generator", .str "randomgen.mt64.MT64"), ("state", mkDict [("key", pyArr x.mt), ("pos", pyI x.mti)])] ++ halfEntries x.has x.uint)

/-- mt64.pyx:160-172 -/
def mt64Set (v : PyVal) : SetM Mt64I Unit := do
  lift (header "MT64" "randomgen.mt64.MT64" v)
  store (do checkStateArray (← v.item2 "state" "key") 312 64) fun a s => { s with mt := a }
  store (do asInt (← v.item2 "state" "pos")) fun a s => { s with mti := a }
  store (do asInt (← v.item "has_uint32")) fun a s => { s with has := a }
  store (do asU 32 (← v.item "uinteger")) fun a s => { s with uint := a }

/-! ### SFMT, DSFMT -/

/-- `sfmt_state_t` (sfmt.h:311-318): the 156 words of 128 bits as 312 words of 64 bits. -/
structure SfmtI where
  st : Vector U64 312
  idx : U32
  buf : Vector U64 312
  loc : U32
  has : U32
  uint : U32
  deriving DecidableEq

/-- `arr.view(np.uint32)` and `arr.view(np.uint64)`, little endian. -/
def view32 (v : Vector U64 312) : Vector U32 624 :=
  Vector.ofFn fun i => ((v[i.val / 2]'(by omega)) >>> (32 * (i.val % 2))).truncate 32
def view64 (v : Vector U32 624) : Vector U64 312 :=
  Vector.ofFn fun i => (v[2 * i.val + 1]'(by omega)).zeroExtend 64 <<< 32 ||| (v[2 * i.val]'(by omega)).zeroExtend 64

/-- sfmt.pyx:256-274 -/
def sfmtGet (x : SfmtI) : PyVal :=
  mkDict ([("bit_generator", .str "randomgen.sfmt.SFMT"), ("state", mkDict [("state", pyArr (view32 x.st)), ("idx", pyI x.idx)]),
    ("buffer_loc", pyI x.loc), ("buffered_uint64", pyArr x.buf)] ++ halfEntries x.has x.uint)

/-- sfmt.pyx:277-299 -/
def sfmtSet (v : PyVal) : SetM SfmtI Unit := do
  lift (header "SFMT" "randomgen.sfmt.SFMT" v)
  store (do checkStateArray (← v.item2 "state" "state") 624 32) fun a s => { s with st := view64 a }
  store (do asInt (← v.item2 "state" "idx")) fun a s => { s with idx := a }
  store (do checkStateArray (← v.item "buffered_uint64") 312 64) fun a s => { s with buf := a }
  store (do asInt (← v.item "buffer_loc")) fun a s => { s with loc := a }
  store (do asInt (← v.item "has_uint32")) fun a s => { s with has := a }
  store (do asU 32 (← v.item "uinteger")) fun a s => { s with uint := a }

/-- `dsfmt_state_t` (dsfmt.h:646-650): 192 words of 128 bits as 384 words of 64 bits; the buffered doubles as bits. -/
structure DsfmtI where
  st : Vector U64 384
  idx : U32
  buf : Vector U64 382
  loc : U32
  deriving DecidableEq

/-- dsfmt.pyx:256-268 -/
def dsfmtGet (x : DsfmtI) : PyVal :=
  mkDict [("bit_generator", .str "randomgen.dsfmt.DSFMT"), ("state", mkDict [("state", pyArr x.st), ("idx", pyI x.idx)]),
    ("buffer_loc", pyI x.loc), ("buffered_uniforms", .floats x.buf.toList)]

/-- dsfmt.pyx:271-290 -/
def dsfmtSet (v : PyVal) : SetM DsfmtI Unit := do
  lift (header "DSFMT" "randomgen.dsfmt.DSFMT" v)
  store (do checkStateArray (← v.item2 "state" "state") 384 64) fun a s => { s with st := a }
  store (do asInt (← v.item2 "state" "idx")) fun a s => { s with idx := a }
  let u ← lift (v.item "buffered_uniforms")
  storeVec asDouble DsfmtI.buf (fun a s => { s with buf := a }) u
  store (do asInt (← v.item "buffer_loc")) fun a s => { s with loc := a }

/-! ### HC128 -/

/-- `hc128_state_t` (hc-128.h:10-16). -/
structure Hc128I where
  p : Vector U32 512
  q : Vector U32 512
  buffer : Vector U32 16
  hcIdx : U32
  bufferIdx : U32
  deriving DecidableEq

/-- hc128.pyx:184-201 -/
def hc128Get (x : Hc128I) : PyVal :=
  mkDict [("bit_generator", .str "randomgen.hc128.HC128"),
    ("state", mkDict [("p", pyArr x.p), ("q", pyArr x.q), ("hc_idx", pyI x.hcIdx), ("buffer", pyArr x.buffer), ("buffer_idx", pyI x.bufferIdx)])]

/-- hc128.pyx:204-229 -/
def hc128Set (v : PyVal) : SetM Hc128I Unit := do
  lift (header "HC128" "randomgen.hc128.HC128" v)
  let st ← lift (v.item "state")
  let p ← lift (do checkStateArray (← st.item "p") 512 32)
  let q ← lift (do checkStateArray (← st.item "q") 512 32)
  let buffer ← lift (do checkStateArray (← st.item "buffer") 16 32)
  modify fun s => { s with p := p, q := q }
  modify fun s => { s with buffer := buffer }
  store (do asInt (← st.item "hc_idx")) fun a s => { s with hcIdx := a }
  store (do asInt (← st.item "buffer_idx")) fun a s => { s with bufferIdx := a }

/-! ### ChaCha -/

/-- `chacha_state_t` (chacha.h:38-43). -/
structure ChaChaI where
  block : Vector U32 16
  keysetup : Vector U32 8
  ctr : Vector U64 2
  rounds : U32
  deriving DecidableEq

/-- chacha.pyx:260-273 -/
def chachaGet (x : ChaChaI) : PyVal :=
  mkDict [("bit_generator", .str "randomgen.chacha.ChaCha"),
    ("state", mkDict [("block", pyArr x.block), ("keysetup", pyArr x.keysetup), ("ctr", pyArr x.ctr), ("rounds", pyI x.rounds)])]

/-- chacha.pyx:276-294 -/
def chachaSet (v : PyVal) : SetM ChaChaI Unit := do
  lift (header "ChaCha" "randomgen.chacha.ChaCha" v)
  let st ← lift (v.item "state")
  let block ← lift (st.item "block")
  storeVec (asU 32) ChaChaI.block (fun a s => { s with block := a }) block
  let key ← lift (st.item "keysetup")
  storeVec (asU 32) ChaChaI.keysetup (fun a s => { s with keysetup := a }) key
  let ctr ← lift (st.item "ctr")
  storeVec (asU 64) ChaChaI.ctr (fun a s => { s with ctr := a }) ctr
  store (do asInt (← st.item "rounds")) fun a s => { s with rounds := a }

/-! ### SPECK128 -/

/-- `speck_state_t` (speck-128-common.h:22-31): the 96 bytes of the buffer as 12 little-endian words of 64 bits, the
getter's and setter's view of them. -/
structure SpeckI where
  ctr : Vector U64 12
  buffer : Vector U64 12
  roundKey : Vector U64 68
  rounds : U32
  offset : U32
  has : U32
  uint : U32
  deriving DecidableEq

/-- speck128.pyx:272-300 -/
def speckGet (x : SpeckI) : PyVal :=
  mkDict ([("bit_generator", .str "randomgen.speck128.SPECK128"),
    ("state", mkDict [("ctr", pyArr x.ctr), ("buffer", pyArr x.buffer), ("round_key", pyArr x.roundKey), ("offset", pyI x.offset), ("rounds", pyI x.rounds)])] ++ halfEntries x.has x.uint)

/-- speck128.pyx:303-339 -/
def speckSet (v : PyVal) : SetM SpeckI Unit := do
  lift (header "SPECK128" "randomgen.speck128.SPECK128" v)
  let st ← lift (v.item "state")
  let ctr ← lift (do checkStateArray (← st.item "ctr") 12 64)
  let buffer ← lift (do checkStateArray (← st.item "buffer") 12 64)
  let rk ← lift (do checkStateArray (← st.item "round_key") 68 64)
  modify fun s => { s with ctr := ctr }
  modify fun s => { s with buffer := buffer }
  modify fun s => { s with roundKey := rk }
  store (do asInt (← st.item "rounds")) fun a s => { s with rounds := a }
  store (do asInt (← st.item "offset")) fun a s => { s with offset := a }
  store (do asInt (← v.item "has_uint32")) fun a s => { s with has := a }
  store (do asU 32 (← v.item "uinteger")) fun a s => { s with uint := a }

/-! ### AESCounter -/

/-- `aesctr_state_t` (aesctr.h:38-45): counters and round keys as 64-bit words, the output buffer as bytes. -/
structure AesI where
  ctr : Vector U64 8
  seed : Vector U64 22
  state : Vector (BitVec 8) 64
  offset : U64
  has : U32
  uint : U32
  deriving DecidableEq

/-- aes.pyx:259-276 -/
def aesGet (x : AesI) : PyVal :=
  mkDict ([("bit_generator", .str "randomgen.aes.AESCounter"),
    ("s", mkDict [("state", pyArr x.state), ("seed", pyArr x.seed), ("counter", pyArr x.ctr), ("offset", pyU x.offset)])] ++ halfEntries x.has x.uint)

/-- `np.ascontiguousarray(v, dtype=np.uint64)` and the test of its shape (aes.pyx:292-298): arrays of other integer types
are converted. Float arrays, which numpy would also convert, are refused here. -/
def asU64Array (v : PyVal) : Res (List U64) := match v with
  | .arr b xs => .ok (xs.map fun x => BitVec.ofNat 64 (x % 2 ^ b))
  | .list xs => if xs.all (fun i => 0 ≤ i ∧ i < 2 ^ 64) then .ok (xs.map (BitVec.ofInt 64)) else .err .overflowError
  | .int i => if 0 ≤ i ∧ i < 2 ^ 64 then .ok [BitVec.ofInt 64 i] else .err .overflowError
  | _ => .err .typeError

def needLen (n : Nat) (xs : List U64) : Res (Vector U64 n) :=
  if xs.length = n then .ok (Vector.ofFn fun i => xs.getD i 0) else .err .valueError

/-- aes.pyx:279-303 -/
def aesSet (v : PyVal) : SetM AesI Unit := do
  lift (header "AESCounter" "randomgen.aes.AESCounter" v)
  let st ← lift (v.item2 "s" "state")
  storeVec (asU 8) AesI.state (fun a s => { s with state := a }) st
  store (do asU 64 (← v.item2 "s" "offset")) fun a s => { s with offset := a }
  let seed ← lift (do asU64Array (← v.item2 "s" "seed"))
  let ctr ← lift (do asU64Array (← v.item2 "s" "counter"))
  let seed ← lift (needLen 22 seed)
  let ctr ← lift (needLen 8 ctr)
  modify fun s => { s with seed := seed, ctr := ctr }
  store (do asInt (← v.item "has_uint32")) fun a s => { s with has := a }
  store (do asU 32 (← v.item "uinteger")) fun a s => { s with uint := a }

/-! ### Squares -/

/-- `squares_state_t` (squares.h:6-11), `variant`, `_use64` and the installed functions. -/
structure SquaresI where
  key : U64
  counter : U64
  has : U32
  uint : U32
  variant : U32
  use64 : Bool
  act64 : Bool
  deriving DecidableEq

/-- squares.pyx:526-531 -/
def squaresGet (x : SquaresI) : PyVal :=
  mkDict ([("bit_generator", .str "randomgen.squares.Squares"), ("state", mkDict [("key", pyU x.key), ("counter", pyU x.counter)]),
    ("variant", pyI x.variant)] ++ halfEntries x.has x.uint)

/-- `variant not in (64, 32)` (squares.pyx:545) -/
def squaresVariant (v : PyVal) : Res U32 := match v with
  | .int i => if i = 64 ∨ i = 32 then .ok (BitVec.ofInt 32 i) else .err .valueError
  | _ => .err .valueError

/-- squares.pyx:534-549, `_setup_bitgen` :448-458. `has_uint32` and `uinteger` are not read. -/
def squaresSet (v : PyVal) : SetM SquaresI Unit := do
  lift (header "Squares" "randomgen.squares.Squares" v)
  let st ← lift (v.item "state")
  store (do asU 64 (← st.item "key")) fun a s => { s with key := a }
  store (do asU 64 (← st.item "counter")) fun a s => { s with counter := a }
  store (do squaresVariant (← v.item "variant")) fun a s => { s with variant := a, use64 := a == 64 }
  modify fun s => { s with act64 := s.use64 }

/-! ### Philox, ThreeFry -/

/-- `philox_all_t` (philox.h:400-408), `threefry_all_t` (threefry.h:773-781), the attributes `n`, `w` and the variant whose
functions are installed. The counter, key and buffer words of all variants are kept in 64-bit slots, a 32-bit word in the low
half of its slot; the overlap of the union members of different variants is not modelled. Philox uses two key slots. -/
structure CtrI where
  n : U32
  w : U32
  number : U32
  width : U32
  actN : U32
  actW : U32
  ctr : Vector U64 4
  key : Vector U64 4
  buf : Vector U64 4
  pos : U32
  has : U32
  uint : U32
  deriving DecidableEq

/-- The first `k` slots, as an array of the dtype chosen by `w`. -/
def slots (w : U32) (v : Vector U64 4) (k : Nat) : PyVal :=
  if w = 64 then .arr 64 ((v.toList.take k).map BitVec.toNat) else .arr 32 ((v.toList.take k).map fun x => (x.truncate 32 : U32).toNat)

/-- philox.pyx:332-367, threefry.pyx:323-352, for `n ≤ 4`; `keys n` is the number of key words. -/
def ctrGet (name : String) (keys : Nat → Nat) (x : CtrI) : PyVal :=
  mkDict ([("bit_generator", .str name),
    ("state", mkDict [("counter", slots x.w x.ctr x.n.toNat), ("key", slots x.w x.key (keys x.n.toNat))]),
    ("buffer", slots x.w x.buf x.n.toNat), ("buffer_pos", pyI x.pos)] ++ halfEntries x.has x.uint ++
    [("number", pyI x.number), ("width", pyI x.width)])

/-- `_setup_generator` (philox.pyx:194-215): an unknown combination leaves the functions alone. -/
def ctrSetup (s : CtrI) : CtrI :=
  if (s.n = 4 ∨ s.n = 2) ∧ (s.w = 64 ∨ s.w = 32) then { s with actN := s.n, actW := s.w } else s

/-- `check_state_array(v, n, w, …)` with `n` and `w` taken from the dictionary: `np.dtype("uint" + str(w))` fails for other
widths than 8, 16, 32, 64. -/
def checkDyn (v : PyVal) (n : Nat) (w : U32) : Res (List U64) :=
  if w = 8 ∨ w = 16 ∨ w = 32 ∨ w = 64 then do
    let a ← checkStateArray v n w.toNat
    pure (a.toList.map fun x => x.zeroExtend 64)
  else .err .typeError

/-- `for i in range(k): slot[i] = a[i]` with `.u32` or `.u64`; an index past the array writes outside it. -/
def putSlots (room : Nat) (w : U32) (a : List U64) (old : Vector U64 4) : Res (Vector U64 4) :=
  if a.length ≤ room then
    .ok (Vector.ofFn fun i => match a[i.val]? with
      | some x => if w = 32 then setLow old[i] (x.truncate 32) else x
      | none => old[i])
  else .ub

/-- philox.pyx:370-413, threefry.pyx:355-394. `keys n` is the number of key words expected, `room` the number the union
has. A negative `number` is refused by the array checks (no array has that length). -/
def ctrSet (short full : String) (keys : Nat → Nat) (room : Nat) (v : PyVal) : SetM CtrI Unit := do
  lift (header short full v)
  store (asInt (getD v "number" (.int 4))) fun a s => { s with number := a, n := a }
  store (asInt (getD v "width" (.int 64))) fun a s => { s with width := a, w := a }
  modify ctrSetup
  let s ← read
  let st ← lift (v.item "state")
  let ctr ← lift (do checkDyn (← st.item "counter") s.n.toNat s.w)
  let key ← lift (do checkDyn (← st.item "key") (keys s.n.toNat) s.w)
  let buffer ← lift (do checkDyn (← v.item "buffer") s.n.toNat s.w)
  modify fun s => { s with uint := 0, has := 0, pos := 4, buf := Vector.replicate 4 0 }
  let s ← read
  store (putSlots 4 s.w buffer s.buf) fun a s => { s with buf := a }
  store (putSlots 4 s.w ctr s.ctr) fun a s => { s with ctr := a }
  store (putSlots room s.w key s.key) fun a s => { s with key := a }
  store (do asInt (← v.item "has_uint32")) fun a s => { s with has := a }
  store (do asU 32 (← v.item "uinteger")) fun a s => { s with uint := a }
  store (do asInt (← v.item "buffer_pos")) fun a s => { s with pos := a }

def philoxGet := ctrGet "randomgen.philox.Philox" (· / 2)
def philoxSet := ctrSet "Philox" "randomgen.philox.Philox" (· / 2) 2
def threefryGet := ctrGet "randomgen.threefry.ThreeFry" id
def threefrySet := ctrSet "ThreeFry" "randomgen.threefry.ThreeFry" id 4

/-! ### RDRAND -/

/-- `rdrand_state` (rdrand.h:12-18). -/
structure RdrandI where
  buffer : Vector U64 256
  loc : U32
  status : U32
  retries : U32
  weyl : U64
  deriving DecidableEq

/-- rdrand.pyx:459-466: only the number of retries is restored. -/
def rdrandSet (v : PyVal) : SetM RdrandI Unit := do
  lift (header "RDRAND" "randomgen.rdrand.RDRAND" v)
  store (do asInt (← v.item "retries")) fun a s => { s with retries := a }

end Verif
