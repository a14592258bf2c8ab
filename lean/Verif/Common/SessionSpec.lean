import Verif.Model.Session

/-! What programs that use bit generators are supposed to return: a generator is a place in the stream of words that belongs to its seed.
Nothing here looks at the code of the generators. -/

namespace Verif

/-- A draw of a 64-bit generator at word `at.1` of the stream `w`, with `at.2` the unused half of an earlier word. 32-bit draws take the low
half of a new word and keep the high half for the next 32-bit draw; the other draws take a new word and leave the half alone. -/
def draw64At (w : Nat → U64) (o : Op) (a : Nat × Option U32) : Out × (Nat × Option U32) := match o with
  | .u64 => (.o64 (w a.1), a.1 + 1, a.2)
  | .dbl => (.odbl ((w a.1).toNat / 2 ^ 11), a.1 + 1, a.2)
  | .u32 => match a.2 with
    | some v => (.o32 v, a.1, none)
    | none => (.o32 (BitVec.ofNat 32 ((w a.1).toNat % 2 ^ 32)), a.1 + 1, some (BitVec.ofNat 32 ((w a.1).toNat / 2 ^ 32)))

/-- A draw of a 32-bit generator: 64-bit draws and doubles take two words. `hiFirst`: the first word is the high half of a 64-bit draw. -/
def draw32At (hiFirst : Bool) (w : Nat → U32) (o : Op) (a : Nat × Option U32) : Out × (Nat × Option U32) := match o with
  | .u32 => (.o32 (w a.1), a.1 + 1, a.2)
  | .u64 =>
    let h := if hiFirst then w a.1 else w (a.1 + 1)
    let l := if hiFirst then w (a.1 + 1) else w a.1
    (.o64 (BitVec.ofNat 64 (h.toNat * 2 ^ 32 + l.toNat)), a.1 + 2, a.2)
  | .dbl => (.odbl ((w a.1).toNat / 2 ^ 5 * 2 ^ 26 + (w (a.1 + 1)).toNat / 2 ^ 6), a.1 + 2, a.2)

/-- A draw of a 32-bit generator whose doubles are made of the upper 53 bits of a 64-bit draw. -/
def draw32JoinAt (hiFirst : Bool) (w : Nat → U32) (o : Op) (a : Nat × Option U32) : Out × (Nat × Option U32) :=
  let h := if hiFirst then w a.1 else w (a.1 + 1)
  let l := if hiFirst then w (a.1 + 1) else w a.1
  match o with
  | .u32 => (.o32 (w a.1), a.1 + 1, a.2)
  | .u64 => (.o64 (BitVec.ofNat 64 (h.toNat * 2 ^ 32 + l.toNat)), a.1 + 2, a.2)
  | .dbl => (.odbl ((h.toNat * 2 ^ 32 + l.toNat) / 2 ^ 11), a.1 + 2, a.2)

/-- The place `k` words further on; the unused half is dropped. -/
def skipAt (k : Nat) (a : Nat × Option U32) : Nat × Option U32 := (a.1 + k, none)

/-- What is promised of a class. `Org` names a stream. -/
structure SSpec (Par Seed Org : Type) where
  /-- the stream of a new generator -/
  start : Par → Seed → Made Org
  /-- the stream after `seed`, given the stream and the number of words taken before -/
  restart : Par → Org → Nat → Seed → Made Org
  /-- one draw -/
  draw : Org → Op → Nat × Option U32 → Out × (Nat × Option U32)
  /-- where `jump(iter)` leads; `none` if the number is refused -/
  jump : Option (Int → Option (Nat × Option U32 → Nat × Option U32))
  jumped : Option (Int → Option (Nat × Option U32 → Nat × Option U32))
  advance : Option (Int → Nat × Option U32 → Nat × Option U32)
  /-- the error of a refused jump -/
  jumpErr : Int → PyErr := fun _ => .overflowError
  /-- the error of a refused `advance` -/
  advErr : Int → Option PyErr := fun _ => none

/-- A generator: its parameters, its seed, its stream, and the place in the stream. -/
structure SInst (Par Seed Org : Type) where
  par : Par
  seed : Seed
  org : Org
  at_ : Nat × Option U32

/-- The generators and the saved places. -/
structure SWorld (Par Seed Org : Type) where
  insts : List (SInst Par Seed Org)
  saved : List (Org × (Nat × Option U32))

namespace SSpec
variable {Par Seed Org : Type} (S : SSpec Par Seed Org)

/-- One call. -/
def step (h : SWorld Par Seed Org) : SOp Par Seed → SRes × SWorld Par Seed Org
  | .new p sd => match S.start p sd with
    | .ok o => (.done, { h with insts := h.insts ++ [⟨p, sd, o, 0, none⟩] })
    | .err e => (.err e, h)
    | .hang => (.hang, h)
    | .ub => (.ub, h)
  | .seed i sd => match h.insts[i]? with
    | none => (.noObject, h)
    | some g => match S.restart g.par g.org g.at_.1 sd with
      | .ok o => (.done, { h with insts := h.insts.set i ⟨g.par, sd, o, 0, none⟩ })
      | .err e => (.err e, h)
      | .hang => (.hang, h)
      | .ub => (.ub, h)
  | .draw i o => match h.insts[i]? with
    | none => (.noObject, h)
    | some g => (.val (S.draw g.org o g.at_).1, { h with insts := h.insts.set i { g with at_ := (S.draw g.org o g.at_).2 } })
  | .save i => match h.insts[i]? with
    | none => (.noObject, h)
    | some g => (.done, { h with saved := h.saved ++ [(g.org, g.at_)] })
  | .load i j => match h.insts[i]?, h.saved[j]? with
    | some g, some d => (.done, { h with insts := h.insts.set i { g with org := d.1, at_ := d.2 } })
    | _, _ => (.noObject, h)
  | .jump i n => match h.insts[i]? with
    | none => (.noObject, h)
    | some g => match S.jump with
      | none => (.noMethod, h)
      | some f => match f n with
        | none => (.err (S.jumpErr n), h)
        | some k => (.done, { h with insts := h.insts.set i { g with at_ := k g.at_ } })
  | .jumped i n => match h.insts[i]? with
    | none => (.noObject, h)
    | some g => match S.jumped with
      | none => (.noMethod, h)
      | some f => match f n with
        | none => (.err (S.jumpErr n), h)
        | some k => (.done, { h with insts := h.insts ++ [{ g with at_ := k g.at_ }] })
  | .advance i d => match h.insts[i]? with
    | none => (.noObject, h)
    | some g => match S.advance with
      | none => (.noMethod, h)
      | some f => match S.advErr d with
        | some e => (.err e, h)
        | none => (.done, { h with insts := h.insts.set i { g with at_ := f d g.at_ } })

/-- The results of a program. -/
def run (h : SWorld Par Seed Org) : List (SOp Par Seed) → List SRes
  | [] => []
  | o :: os => match S.step h o with
    | (.hang, _) => [.hang]
    | (.ub, _) => [.ub]
    | (r, h') => r :: run h' os

def program (os : List (SOp Par Seed)) : List SRes := S.run ⟨[], []⟩ os

end SSpec

end Verif
