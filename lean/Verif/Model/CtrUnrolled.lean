import Verif.Model.CtrMode

/-! The unrolled bodies of `threefry##N##x##W##_R` and `philox##N##x##W##_R`, statement by statement, as programs with an
interpreter. `Model/CtrMode` has the same functions as loops; that they agree is theorem `C87_*_unrolled`. The two lists of
statements are extracted from the text of threefry.h by `tools/threefry_unrolled.py`. -/

namespace Verif

/-- One statement of the unrolled rounds: `X.v[i] += X.v[j]`, `X.v[i] = RotL_##W(X.v[j], R_##W##xN_row_col)`,
`X.v[i] ^= X.v[j]`, `X.v[i] += ks[k]`, `X.v[i] += c`. -/
inductive XStmt where
  | add (i j : Nat)
  | rot (i j row col : Nat)
  | xor (i j : Nat)
  | key (i k : Nat)
  | num (i c : Nat)
  deriving DecidableEq, Repr

/-- The effect of a statement on the array `X`, for the rotation constants `R_##W##xN_*` and the extended key `ks`. -/
def xExec {w : Nat} (N : Nat) (ks : List (BitVec w)) (x : List (BitVec w)) : XStmt → List (BitVec w)
  | .add i j => x.set i (x.getD i 0 + x.getD j 0)
  | .rot i j row col =>
    let R := (tfRotTable N w).getD row (0, 0)
    x.set i (tfRotl (x.getD j 0) (if col = 0 then R.1 else R.2))
  | .xor i j => x.set i (x.getD i 0 ^^^ x.getD j 0)
  | .key i k => x.set i (x.getD i 0 + ks.getD k 0)
  | .num i c => x.set i (x.getD i 0 + BitVec.ofNat w c)

/-- `if(Nrounds>g){ ... }`. -/
def xBlock {w : Nat} (N Nrounds : Nat) (ks : List (BitVec w)) (x : List (BitVec w)) (b : Nat × List XStmt) : List (BitVec w) :=
  if Nrounds > b.1 then b.2.foldl (xExec N ks) x else x

/-- The guarded blocks of `_threefry2x_tpl` (threefry.h:221-292). -/
def tf2Code : List (Nat × List XStmt) :=
  [(0, [.add 0 1, .rot 1 1 0 0, .xor 1 0]),
   (1, [.add 0 1, .rot 1 1 1 0, .xor 1 0]),
   (2, [.add 0 1, .rot 1 1 2 0, .xor 1 0]),
   (3, [.add 0 1, .rot 1 1 3 0, .xor 1 0]),
   (3, [.key 0 1, .key 1 2, .num 1 1]),
   (4, [.add 0 1, .rot 1 1 4 0, .xor 1 0]),
   (5, [.add 0 1, .rot 1 1 5 0, .xor 1 0]),
   (6, [.add 0 1, .rot 1 1 6 0, .xor 1 0]),
   (7, [.add 0 1, .rot 1 1 7 0, .xor 1 0]),
   (7, [.key 0 2, .key 1 0, .num 1 2]),
   (8, [.add 0 1, .rot 1 1 0 0, .xor 1 0]),
   (9, [.add 0 1, .rot 1 1 1 0, .xor 1 0]),
   (10, [.add 0 1, .rot 1 1 2 0, .xor 1 0]),
   (11, [.add 0 1, .rot 1 1 3 0, .xor 1 0]),
   (11, [.key 0 0, .key 1 1, .num 1 3]),
   (12, [.add 0 1, .rot 1 1 4 0, .xor 1 0]),
   (13, [.add 0 1, .rot 1 1 5 0, .xor 1 0]),
   (14, [.add 0 1, .rot 1 1 6 0, .xor 1 0]),
   (15, [.add 0 1, .rot 1 1 7 0, .xor 1 0]),
   (15, [.key 0 1, .key 1 2, .num 1 4]),
   (16, [.add 0 1, .rot 1 1 0 0, .xor 1 0]),
   (17, [.add 0 1, .rot 1 1 1 0, .xor 1 0]),
   (18, [.add 0 1, .rot 1 1 2 0, .xor 1 0]),
   (19, [.add 0 1, .rot 1 1 3 0, .xor 1 0]),
   (19, [.key 0 2, .key 1 0, .num 1 5]),
   (20, [.add 0 1, .rot 1 1 4 0, .xor 1 0]),
   (21, [.add 0 1, .rot 1 1 5 0, .xor 1 0]),
   (22, [.add 0 1, .rot 1 1 6 0, .xor 1 0]),
   (23, [.add 0 1, .rot 1 1 7 0, .xor 1 0]),
   (23, [.key 0 0, .key 1 1, .num 1 6]),
   (24, [.add 0 1, .rot 1 1 0 0, .xor 1 0]),
   (25, [.add 0 1, .rot 1 1 1 0, .xor 1 0]),
   (26, [.add 0 1, .rot 1 1 2 0, .xor 1 0]),
   (27, [.add 0 1, .rot 1 1 3 0, .xor 1 0]),
   (27, [.key 0 1, .key 1 2, .num 1 7]),
   (28, [.add 0 1, .rot 1 1 4 0, .xor 1 0]),
   (29, [.add 0 1, .rot 1 1 5 0, .xor 1 0]),
   (30, [.add 0 1, .rot 1 1 6 0, .xor 1 0]),
   (31, [.add 0 1, .rot 1 1 7 0, .xor 1 0]),
   (31, [.key 0 2, .key 1 0, .num 1 8])]

/-- The guarded blocks of `_threefry4x_tpl` (threefry.h:327-721). -/
def tf4Code : List (Nat × List XStmt) :=
  [(0, [.add 0 1, .rot 1 1 0 0, .xor 1 0, .add 2 3, .rot 3 3 0 1, .xor 3 2]),
   (1, [.add 0 3, .rot 3 3 1 0, .xor 3 0, .add 2 1, .rot 1 1 1 1, .xor 1 2]),
   (2, [.add 0 1, .rot 1 1 2 0, .xor 1 0, .add 2 3, .rot 3 3 2 1, .xor 3 2]),
   (3, [.add 0 3, .rot 3 3 3 0, .xor 3 0, .add 2 1, .rot 1 1 3 1, .xor 1 2]),
   (3, [.key 0 1, .key 1 2, .key 2 3, .key 3 4, .num 3 1]),
   (4, [.add 0 1, .rot 1 1 4 0, .xor 1 0, .add 2 3, .rot 3 3 4 1, .xor 3 2]),
   (5, [.add 0 3, .rot 3 3 5 0, .xor 3 0, .add 2 1, .rot 1 1 5 1, .xor 1 2]),
   (6, [.add 0 1, .rot 1 1 6 0, .xor 1 0, .add 2 3, .rot 3 3 6 1, .xor 3 2]),
   (7, [.add 0 3, .rot 3 3 7 0, .xor 3 0, .add 2 1, .rot 1 1 7 1, .xor 1 2]),
   (7, [.key 0 2, .key 1 3, .key 2 4, .key 3 0, .num 3 2]),
   (8, [.add 0 1, .rot 1 1 0 0, .xor 1 0, .add 2 3, .rot 3 3 0 1, .xor 3 2]),
   (9, [.add 0 3, .rot 3 3 1 0, .xor 3 0, .add 2 1, .rot 1 1 1 1, .xor 1 2]),
   (10, [.add 0 1, .rot 1 1 2 0, .xor 1 0, .add 2 3, .rot 3 3 2 1, .xor 3 2]),
   (11, [.add 0 3, .rot 3 3 3 0, .xor 3 0, .add 2 1, .rot 1 1 3 1, .xor 1 2]),
   (11, [.key 0 3, .key 1 4, .key 2 0, .key 3 1, .num 3 3]),
   (12, [.add 0 1, .rot 1 1 4 0, .xor 1 0, .add 2 3, .rot 3 3 4 1, .xor 3 2]),
   (13, [.add 0 3, .rot 3 3 5 0, .xor 3 0, .add 2 1, .rot 1 1 5 1, .xor 1 2]),
   (14, [.add 0 1, .rot 1 1 6 0, .xor 1 0, .add 2 3, .rot 3 3 6 1, .xor 3 2]),
   (15, [.add 0 3, .rot 3 3 7 0, .xor 3 0, .add 2 1, .rot 1 1 7 1, .xor 1 2]),
   (15, [.key 0 4, .key 1 0, .key 2 1, .key 3 2, .num 3 4]),
   (16, [.add 0 1, .rot 1 1 0 0, .xor 1 0, .add 2 3, .rot 3 3 0 1, .xor 3 2]),
   (17, [.add 0 3, .rot 3 3 1 0, .xor 3 0, .add 2 1, .rot 1 1 1 1, .xor 1 2]),
   (18, [.add 0 1, .rot 1 1 2 0, .xor 1 0, .add 2 3, .rot 3 3 2 1, .xor 3 2]),
   (19, [.add 0 3, .rot 3 3 3 0, .xor 3 0, .add 2 1, .rot 1 1 3 1, .xor 1 2]),
   (19, [.key 0 0, .key 1 1, .key 2 2, .key 3 3, .num 3 5]),
   (20, [.add 0 1, .rot 1 1 4 0, .xor 1 0, .add 2 3, .rot 3 3 4 1, .xor 3 2]),
   (21, [.add 0 3, .rot 3 3 5 0, .xor 3 0, .add 2 1, .rot 1 1 5 1, .xor 1 2]),
   (22, [.add 0 1, .rot 1 1 6 0, .xor 1 0, .add 2 3, .rot 3 3 6 1, .xor 3 2]),
   (23, [.add 0 3, .rot 3 3 7 0, .xor 3 0, .add 2 1, .rot 1 1 7 1, .xor 1 2]),
   (23, [.key 0 1, .key 1 2, .key 2 3, .key 3 4, .num 3 6]),
   (24, [.add 0 1, .rot 1 1 0 0, .xor 1 0, .add 2 3, .rot 3 3 0 1, .xor 3 2]),
   (25, [.add 0 3, .rot 3 3 1 0, .xor 3 0, .add 2 1, .rot 1 1 1 1, .xor 1 2]),
   (26, [.add 0 1, .rot 1 1 2 0, .xor 1 0, .add 2 3, .rot 3 3 2 1, .xor 3 2]),
   (27, [.add 0 3, .rot 3 3 3 0, .xor 3 0, .add 2 1, .rot 1 1 3 1, .xor 1 2]),
   (27, [.key 0 2, .key 1 3, .key 2 4, .key 3 0, .num 3 7]),
   (28, [.add 0 1, .rot 1 1 4 0, .xor 1 0, .add 2 3, .rot 3 3 4 1, .xor 3 2]),
   (29, [.add 0 3, .rot 3 3 5 0, .xor 3 0, .add 2 1, .rot 1 1 5 1, .xor 1 2]),
   (30, [.add 0 1, .rot 1 1 6 0, .xor 1 0, .add 2 3, .rot 3 3 6 1, .xor 3 2]),
   (31, [.add 0 3, .rot 3 3 7 0, .xor 3 0, .add 2 1, .rot 1 1 7 1, .xor 1 2]),
   (31, [.key 0 3, .key 1 4, .key 2 0, .key 3 1, .num 3 8]),
   (32, [.add 0 1, .rot 1 1 0 0, .xor 1 0, .add 2 3, .rot 3 3 0 1, .xor 3 2]),
   (33, [.add 0 3, .rot 3 3 1 0, .xor 3 0, .add 2 1, .rot 1 1 1 1, .xor 1 2]),
   (34, [.add 0 1, .rot 1 1 2 0, .xor 1 0, .add 2 3, .rot 3 3 2 1, .xor 3 2]),
   (35, [.add 0 3, .rot 3 3 3 0, .xor 3 0, .add 2 1, .rot 1 1 3 1, .xor 1 2]),
   (35, [.key 0 4, .key 1 0, .key 2 1, .key 3 2, .num 3 9]),
   (36, [.add 0 1, .rot 1 1 4 0, .xor 1 0, .add 2 3, .rot 3 3 4 1, .xor 3 2]),
   (37, [.add 0 3, .rot 3 3 5 0, .xor 3 0, .add 2 1, .rot 1 1 5 1, .xor 1 2]),
   (38, [.add 0 1, .rot 1 1 6 0, .xor 1 0, .add 2 3, .rot 3 3 6 1, .xor 3 2]),
   (39, [.add 0 3, .rot 3 3 7 0, .xor 3 0, .add 2 1, .rot 1 1 7 1, .xor 1 2]),
   (39, [.key 0 0, .key 1 1, .key 2 2, .key 3 3, .num 3 10]),
   (40, [.add 0 1, .rot 1 1 0 0, .xor 1 0, .add 2 3, .rot 3 3 0 1, .xor 3 2]),
   (41, [.add 0 3, .rot 3 3 1 0, .xor 3 0, .add 2 1, .rot 1 1 1 1, .xor 1 2]),
   (42, [.add 0 1, .rot 1 1 2 0, .xor 1 0, .add 2 3, .rot 3 3 2 1, .xor 3 2]),
   (43, [.add 0 3, .rot 3 3 3 0, .xor 3 0, .add 2 1, .rot 1 1 3 1, .xor 1 2]),
   (43, [.key 0 1, .key 1 2, .key 2 3, .key 3 4, .num 3 11]),
   (44, [.add 0 1, .rot 1 1 4 0, .xor 1 0, .add 2 3, .rot 3 3 4 1, .xor 3 2]),
   (45, [.add 0 3, .rot 3 3 5 0, .xor 3 0, .add 2 1, .rot 1 1 5 1, .xor 1 2]),
   (46, [.add 0 1, .rot 1 1 6 0, .xor 1 0, .add 2 3, .rot 3 3 6 1, .xor 3 2]),
   (47, [.add 0 3, .rot 3 3 7 0, .xor 3 0, .add 2 1, .rot 1 1 7 1, .xor 1 2]),
   (47, [.key 0 2, .key 1 3, .key 2 4, .key 3 0, .num 3 12]),
   (48, [.add 0 1, .rot 1 1 0 0, .xor 1 0, .add 2 3, .rot 3 3 0 1, .xor 3 2]),
   (49, [.add 0 3, .rot 3 3 1 0, .xor 3 0, .add 2 1, .rot 1 1 1 1, .xor 1 2]),
   (50, [.add 0 1, .rot 1 1 2 0, .xor 1 0, .add 2 3, .rot 3 3 2 1, .xor 3 2]),
   (51, [.add 0 3, .rot 3 3 3 0, .xor 3 0, .add 2 1, .rot 1 1 3 1, .xor 1 2]),
   (51, [.key 0 3, .key 1 4, .key 2 0, .key 3 1, .num 3 13]),
   (52, [.add 0 1, .rot 1 1 4 0, .xor 1 0, .add 2 3, .rot 3 3 4 1, .xor 3 2]),
   (53, [.add 0 3, .rot 3 3 5 0, .xor 3 0, .add 2 1, .rot 1 1 5 1, .xor 1 2]),
   (54, [.add 0 1, .rot 1 1 6 0, .xor 1 0, .add 2 3, .rot 3 3 6 1, .xor 3 2]),
   (55, [.add 0 3, .rot 3 3 7 0, .xor 3 0, .add 2 1, .rot 1 1 7 1, .xor 1 2]),
   (55, [.key 0 4, .key 1 0, .key 2 1, .key 3 2, .num 3 14]),
   (56, [.add 0 1, .rot 1 1 0 0, .xor 1 0, .add 2 3, .rot 3 3 0 1, .xor 3 2]),
   (57, [.add 0 3, .rot 3 3 1 0, .xor 3 0, .add 2 1, .rot 1 1 1 1, .xor 1 2]),
   (58, [.add 0 1, .rot 1 1 2 0, .xor 1 0, .add 2 3, .rot 3 3 2 1, .xor 3 2]),
   (59, [.add 0 3, .rot 3 3 3 0, .xor 3 0, .add 2 1, .rot 1 1 3 1, .xor 1 2]),
   (59, [.key 0 0, .key 1 1, .key 2 2, .key 3 3, .num 3 15]),
   (60, [.add 0 1, .rot 1 1 4 0, .xor 1 0, .add 2 3, .rot 3 3 4 1, .xor 3 2]),
   (61, [.add 0 3, .rot 3 3 5 0, .xor 3 0, .add 2 1, .rot 1 1 5 1, .xor 1 2]),
   (62, [.add 0 1, .rot 1 1 6 0, .xor 1 0, .add 2 3, .rot 3 3 6 1, .xor 3 2]),
   (63, [.add 0 3, .rot 3 3 7 0, .xor 3 0, .add 2 1, .rot 1 1 7 1, .xor 1 2]),
   (63, [.key 0 1, .key 1 2, .key 2 3, .key 3 4, .num 3 16]),
   (64, [.add 0 1, .rot 1 1 0 0, .xor 1 0, .add 2 3, .rot 3 3 0 1, .xor 3 2]),
   (65, [.add 0 3, .rot 3 3 1 0, .xor 3 0, .add 2 1, .rot 1 1 1 1, .xor 1 2]),
   (66, [.add 0 1, .rot 1 1 2 0, .xor 1 0, .add 2 3, .rot 3 3 2 1, .xor 3 2]),
   (67, [.add 0 3, .rot 3 3 3 0, .xor 3 0, .add 2 1, .rot 1 1 3 1, .xor 1 2]),
   (67, [.key 0 2, .key 1 3, .key 2 4, .key 3 0, .num 3 17]),
   (68, [.add 0 1, .rot 1 1 4 0, .xor 1 0, .add 2 3, .rot 3 3 4 1, .xor 3 2]),
   (69, [.add 0 3, .rot 3 3 5 0, .xor 3 0, .add 2 1, .rot 1 1 5 1, .xor 1 2]),
   (70, [.add 0 1, .rot 1 1 6 0, .xor 1 0, .add 2 3, .rot 3 3 6 1, .xor 3 2]),
   (71, [.add 0 3, .rot 3 3 7 0, .xor 3 0, .add 2 1, .rot 1 1 7 1, .xor 1 2]),
   (71, [.key 0 3, .key 1 4, .key 2 0, .key 3 1, .num 3 18])]

/-- The statements before the rounds (threefry.h:219, 325). -/
def tf2Init : List XStmt := [.key 0 0, .key 1 1]
def tf4Init : List XStmt := [.key 0 0, .key 1 1, .key 2 2, .key 3 3]

/-- `threefry2x##W##_R(Nrounds, in, k)` (threefry.h:205-294) without its assertion `Nrounds <= 32`. -/
def threefry2Code {w : Nat} (Nrounds : Nat) (inp key : List (BitVec w)) : List (BitVec w) :=
  tf2Code.foldl (xBlock 2 Nrounds (tfKs key)) (tf2Init.foldl (xExec 2 (tfKs key)) inp)

/-- `threefry4x##W##_R(Nrounds, in, k)` (threefry.h:311-724) without its assertion `Nrounds <= 72`. -/
def threefry4Code {w : Nat} (Nrounds : Nat) (inp key : List (BitVec w)) : List (BitVec w) :=
  tf4Code.foldl (xBlock 4 Nrounds (tfKs key)) (tf4Init.foldl (xExec 4 (tfKs key)) inp)

/-- One line of `philox##N##x##W##_R` (philox.h:332-347): `if(R>g){ key = bumpkey(key); ctr = round(ctr, key); }`, where
the first line has no `bumpkey`. -/
def philoxLine {w : Nat} (R : Nat) (s : List (BitVec w) × List (BitVec w)) (l : Nat × Bool) : List (BitVec w) × List (BitVec w) :=
  if R > l.1 then
    let key := if l.2 then philoxBump s.2 else s.2
    (philoxRound s.1 key, key)
  else s

/-- The guards of the sixteen lines (philox.h:332-347) and whether they bump the key. -/
def philoxLines : List (Nat × Bool) :=
  [(0, false), (1, true), (2, true), (3, true), (4, true), (5, true), (6, true), (7, true), (8, true), (9, true),
   (10, true), (11, true), (12, true), (13, true), (14, true), (15, true)]

/-- `philox##N##x##W##_R` (philox.h:330-349) without its assertion `R <= 16`. -/
def philoxCode {w : Nat} (R : Nat) (ctr key : List (BitVec w)) : List (BitVec w) :=
  (philoxLines.foldl (philoxLine R) (ctr, key)).1

end Verif
