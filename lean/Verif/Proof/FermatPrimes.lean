import Verif.Common.Prime

/-! Primality certificates for the prime factors of 2^512 - 1 and 2^1024 - 1. The numbers come from tools/xor_period.py. -/

namespace Verif.Prime

theorem prime_13 : Nat.Prime 13 := by norm_num
theorem prime_1789 : Nat.Prime 1789 := by norm_num
theorem prime_229 : Nat.Prime 229 := by norm_num
theorem prime_5039 : Nat.Prime 5039 :=
  prime_of_cert 5039 11 [2, 11, 229]
    (by simp only [List.forall_mem_cons]; exact ⟨prime_2, prime_11, prime_229, by simp⟩)
    (by decide +kernel)
theorem prime_10079 : Nat.Prime 10079 :=
  prime_of_cert 10079 11 [2, 5039]
    (by simp only [List.forall_mem_cons]; exact ⟨prime_2, prime_5039, by simp⟩)
    (by decide +kernel)
theorem prime_761 : Nat.Prime 761 := by norm_num
theorem prime_9133 : Nat.Prime 9133 :=
  prime_of_cert 9133 6 [2, 2, 3, 761]
    (by simp only [List.forall_mem_cons]; exact ⟨prime_2, prime_2, prime_3, prime_761, by simp⟩)
    (by decide +kernel)
theorem prime_876769 : Nat.Prime 876769 :=
  prime_of_cert 876769 7 [2, 2, 2, 2, 2, 3, 9133]
    (by simp only [List.forall_mem_cons]; exact ⟨prime_2, prime_2, prime_2, prime_2, prime_2, prime_3, prime_9133, by simp⟩)
    (by decide +kernel)
theorem prime_31618624099079 : Nat.Prime 31618624099079 :=
  prime_of_cert 31618624099079 17 [2, 1789, 10079, 876769]
    (by simp only [List.forall_mem_cons]; exact ⟨prime_2, prime_1789, prime_10079, prime_876769, by simp⟩)
    (by decide +kernel)
theorem prime_443 : Nat.Prime 443 := by norm_num
theorem prime_8861 : Nat.Prime 8861 :=
  prime_of_cert 8861 2 [2, 2, 5, 443]
    (by simp only [List.forall_mem_cons]; exact ⟨prime_2, prime_2, prime_5, prime_443, by simp⟩)
    (by decide +kernel)
theorem prime_223 : Nat.Prime 223 := by norm_num
theorem prime_1699 : Nat.Prime 1699 := by norm_num
theorem prime_10608557 : Nat.Prime 10608557 :=
  prime_of_cert 10608557 2 [2, 2, 7, 223, 1699]
    (by simp only [List.forall_mem_cons]; exact ⟨prime_2, prime_2, prime_7, prime_223, prime_1699, by simp⟩)
    (by decide +kernel)
theorem prime_29 : Nat.Prime 29 := by norm_num
theorem prime_97 : Nat.Prime 97 := by norm_num
theorem prime_16879 : Nat.Prime 16879 :=
  prime_of_cert 16879 3 [2, 3, 29, 97]
    (by simp only [List.forall_mem_cons]; exact ⟨prime_2, prime_3, prime_29, prime_97, by simp⟩)
    (by decide +kernel)
theorem prime_199 : Nat.Prime 199 := by norm_num
theorem prime_100297 : Nat.Prime 100297 :=
  prime_of_cert 100297 13 [2, 2, 2, 3, 3, 7, 199]
    (by simp only [List.forall_mem_cons]; exact ⟨prime_2, prime_2, prime_2, prime_3, prime_3, prime_7, prime_199, by simp⟩)
    (by decide +kernel)
theorem prime_1604753 : Nat.Prime 1604753 :=
  prime_of_cert 1604753 3 [2, 2, 2, 2, 100297]
    (by simp only [List.forall_mem_cons]; exact ⟨prime_2, prime_2, prime_2, prime_2, prime_100297, by simp⟩)
    (by decide +kernel)
theorem prime_41723579 : Nat.Prime 41723579 :=
  prime_of_cert 41723579 2 [2, 13, 1604753]
    (by simp only [List.forall_mem_cons]; exact ⟨prime_2, prime_13, prime_1604753, by simp⟩)
    (by decide +kernel)
theorem prime_83447159 : Nat.Prime 83447159 :=
  prime_of_cert 83447159 11 [2, 41723579]
    (by simp only [List.forall_mem_cons]; exact ⟨prime_2, prime_41723579, by simp⟩)
    (by decide +kernel)
theorem prime_25353082741699 : Nat.Prime 25353082741699 :=
  prime_of_cert 25353082741699 2 [2, 3, 3, 16879, 83447159]
    (by simp only [List.forall_mem_cons]; exact ⟨prime_2, prime_3, prime_3, prime_16879, prime_83447159, by simp⟩)
    (by decide +kernel)
theorem prime_19 : Nat.Prime 19 := by norm_num
theorem prime_20939 : Nat.Prime 20939 :=
  prime_of_cert 20939 2 [2, 19, 19, 29]
    (by simp only [List.forall_mem_cons]; exact ⟨prime_2, prime_19, prime_19, prime_29, by simp⟩)
    (by decide +kernel)
theorem prime_23 : Nat.Prime 23 := by norm_num
theorem prime_283 : Nat.Prime 283 := by norm_num
theorem prime_10948139 : Nat.Prime 10948139 :=
  prime_of_cert 10948139 2 [2, 23, 29, 29, 283]
    (by simp only [List.forall_mem_cons]; exact ⟨prime_2, prime_23, prime_29, prime_29, prime_283, by simp⟩)
    (by decide +kernel)
theorem prime_6130957841 : Nat.Prime 6130957841 :=
  prime_of_cert 6130957841 3 [2, 2, 2, 2, 5, 7, 10948139]
    (by simp only [List.forall_mem_cons]; exact ⟨prime_2, prime_2, prime_2, prime_2, prime_5, prime_7, prime_10948139, by simp⟩)
    (by decide +kernel)
theorem prime_220714482277 : Nat.Prime 220714482277 :=
  prime_of_cert 220714482277 5 [2, 2, 3, 3, 6130957841]
    (by simp only [List.forall_mem_cons]; exact ⟨prime_2, prime_2, prime_3, prime_3, prime_6130957841, by simp⟩)
    (by decide +kernel)
theorem prime_9243081088796207 : Nat.Prime 9243081088796207 :=
  prime_of_cert 9243081088796207 5 [2, 20939, 220714482277]
    (by simp only [List.forall_mem_cons]; exact ⟨prime_2, prime_20939, prime_220714482277, by simp⟩)
    (by decide +kernel)
theorem prime_1057372046781162536274034354686893329625329 : Nat.Prime 1057372046781162536274034354686893329625329 :=
  prime_of_cert 1057372046781162536274034354686893329625329 11 [2, 2, 2, 2, 3, 8861, 10608557, 25353082741699, 9243081088796207]
    (by simp only [List.forall_mem_cons]; exact ⟨prime_2, prime_2, prime_2, prime_2, prime_3, prime_8861, prime_10608557, prime_25353082741699, prime_9243081088796207, by simp⟩)
    (by decide +kernel)
theorem prime_93461639715357977769163558199606896584051237541638188580280321 : Nat.Prime 93461639715357977769163558199606896584051237541638188580280321 :=
  prime_of_cert 93461639715357977769163558199606896584051237541638188580280321 43 [2, 2, 2, 2, 2, 2, 2, 2, 2, 2, 2, 3, 5, 7, 13, 31618624099079, 1057372046781162536274034354686893329625329]
    (by simp only [List.forall_mem_cons]; exact ⟨prime_2, prime_2, prime_2, prime_2, prime_2, prime_2, prime_2, prime_2, prime_2, prime_2, prime_2, prime_3, prime_5, prime_7, prime_13, prime_31618624099079, prime_1057372046781162536274034354686893329625329, by simp⟩)
    (by decide +kernel)
theorem prime_37 : Nat.Prime 37 := by norm_num
theorem prime_2424833 : Nat.Prime 2424833 :=
  prime_of_cert 2424833 3 [2, 2, 2, 2, 2, 2, 2, 2, 2, 2, 2, 2, 2, 2, 2, 2, 37]
    (by simp only [List.forall_mem_cons]; exact ⟨prime_2, prime_2, prime_2, prime_2, prime_2, prime_2, prime_2, prime_2, prime_2, prime_2, prime_2, prime_2, prime_2, prime_2, prime_2, prime_2, prime_37, by simp⟩)
    (by decide +kernel)
theorem prime_1543 : Nat.Prime 1543 := by norm_num
theorem prime_82488781 : Nat.Prime 82488781 :=
  prime_of_cert 82488781 2 [2, 2, 3, 3, 3, 3, 3, 5, 11, 1543]
    (by simp only [List.forall_mem_cons]; exact ⟨prime_2, prime_2, prime_3, prime_3, prime_3, prime_3, prime_3, prime_5, prime_11, prime_1543, by simp⟩)
    (by decide +kernel)
theorem prime_101 : Nat.Prime 101 := by norm_num
theorem prime_1907 : Nat.Prime 1907 := by norm_num
theorem prime_11443 : Nat.Prime 11443 :=
  prime_of_cert 11443 2 [2, 3, 1907]
    (by simp only [List.forall_mem_cons]; exact ⟨prime_2, prime_3, prime_1907, by simp⟩)
    (by decide +kernel)
theorem prime_68659 : Nat.Prime 68659 :=
  prime_of_cert 68659 2 [2, 3, 11443]
    (by simp only [List.forall_mem_cons]; exact ⟨prime_2, prime_3, prime_11443, by simp⟩)
    (by decide +kernel)
theorem prime_45177623 : Nat.Prime 45177623 :=
  prime_of_cert 45177623 5 [2, 7, 47, 68659]
    (by simp only [List.forall_mem_cons]; exact ⟨prime_2, prime_7, prime_47, prime_68659, by simp⟩)
    (by decide +kernel)
theorem prime_1084262953 : Nat.Prime 1084262953 :=
  prime_of_cert 1084262953 5 [2, 2, 2, 3, 45177623]
    (by simp only [List.forall_mem_cons]; exact ⟨prime_2, prime_2, prime_2, prime_3, prime_45177623, by simp⟩)
    (by decide +kernel)
theorem prime_1143290228161321 : Nat.Prime 1143290228161321 :=
  prime_of_cert 1143290228161321 26 [2, 2, 2, 3, 3, 5, 29, 101, 1084262953]
    (by simp only [List.forall_mem_cons]; exact ⟨prime_2, prime_2, prime_2, prime_3, prime_3, prime_5, prime_29, prime_101, prime_1084262953, by simp⟩)
    (by decide +kernel)
theorem prime_5501 : Nat.Prime 5501 :=
  prime_of_cert 5501 2 [2, 2, 5, 5, 5, 11]
    (by simp only [List.forall_mem_cons]; exact ⟨prime_2, prime_2, prime_5, prime_5, prime_5, prime_11, by simp⟩)
    (by decide +kernel)
theorem prime_11003 : Nat.Prime 11003 :=
  prime_of_cert 11003 2 [2, 5501]
    (by simp only [List.forall_mem_cons]; exact ⟨prime_2, prime_5501, by simp⟩)
    (by decide +kernel)
theorem prime_594163 : Nat.Prime 594163 :=
  prime_of_cert 594163 2 [2, 3, 3, 3, 11003]
    (by simp only [List.forall_mem_cons]; exact ⟨prime_2, prime_3, prime_3, prime_3, prime_11003, by simp⟩)
    (by decide +kernel)
theorem prime_269 : Nat.Prime 269 := by norm_num
theorem prime_11299 : Nat.Prime 11299 :=
  prime_of_cert 11299 3 [2, 3, 7, 269]
    (by simp only [List.forall_mem_cons]; exact ⟨prime_2, prime_3, prime_7, prime_269, by simp⟩)
    (by decide +kernel)
theorem prime_73 : Nat.Prime 73 := by norm_num
theorem prime_3943 : Nat.Prime 3943 :=
  prime_of_cert 3943 3 [2, 3, 3, 3, 73]
    (by simp only [List.forall_mem_cons]; exact ⟨prime_2, prime_3, prime_3, prime_3, prime_73, by simp⟩)
    (by decide +kernel)
theorem prime_212923 : Nat.Prime 212923 :=
  prime_of_cert 212923 3 [2, 3, 3, 3, 3943]
    (by simp only [List.forall_mem_cons]; exact ⟨prime_2, prime_3, prime_3, prime_3, prime_3943, by simp⟩)
    (by decide +kernel)
theorem prime_72174509311 : Nat.Prime 72174509311 :=
  prime_of_cert 72174509311 3 [2, 3, 5, 11299, 212923]
    (by simp only [List.forall_mem_cons]; exact ⟨prime_2, prime_3, prime_5, prime_11299, prime_212923, by simp⟩)
    (by decide +kernel)
theorem prime_514601075709020317 : Nat.Prime 514601075709020317 :=
  prime_of_cert 514601075709020317 5 [2, 2, 3, 594163, 72174509311]
    (by simp only [List.forall_mem_cons]; exact ⟨prime_2, prime_2, prime_3, prime_594163, prime_72174509311, by simp⟩)
    (by decide +kernel)
theorem prime_43226490359557706629 : Nat.Prime 43226490359557706629 :=
  prime_of_cert 43226490359557706629 6 [2, 2, 3, 7, 514601075709020317]
    (by simp only [List.forall_mem_cons]; exact ⟨prime_2, prime_2, prime_3, prime_7, prime_514601075709020317, by simp⟩)
    (by decide +kernel)
theorem prime_7455602825647884208337395736200454918783366342657 : Nat.Prime 7455602825647884208337395736200454918783366342657 :=
  prime_of_cert 7455602825647884208337395736200454918783366342657 3 [2, 2, 2, 2, 2, 2, 2, 2, 2, 2, 2, 19, 47, 82488781, 1143290228161321, 43226490359557706629]
    (by simp only [List.forall_mem_cons]; exact ⟨prime_2, prime_2, prime_2, prime_2, prime_2, prime_2, prime_2, prime_2, prime_2, prime_2, prime_2, prime_19, prime_47, prime_82488781, prime_1143290228161321, prime_43226490359557706629, by simp⟩)
    (by decide +kernel)
theorem prime_1129 : Nat.Prime 1129 := by norm_num
theorem prime_1117 : Nat.Prime 1117 := by norm_num
theorem prime_6703 : Nat.Prime 6703 :=
  prime_of_cert 6703 5 [2, 3, 1117]
    (by simp only [List.forall_mem_cons]; exact ⟨prime_2, prime_3, prime_1117, by simp⟩)
    (by decide +kernel)
theorem prime_26813 : Nat.Prime 26813 :=
  prime_of_cert 26813 2 [2, 2, 6703]
    (by simp only [List.forall_mem_cons]; exact ⟨prime_2, prime_2, prime_6703, by simp⟩)
    (by decide +kernel)
theorem prime_163 : Nat.Prime 163 := by norm_num
theorem prime_439 : Nat.Prime 439 := by norm_num
theorem prime_40644377 : Nat.Prime 40644377 :=
  prime_of_cert 40644377 3 [2, 2, 2, 71, 163, 439]
    (by simp only [List.forall_mem_cons]; exact ⟨prime_2, prime_2, prime_2, prime_71, prime_163, prime_439, by simp⟩)
    (by decide +kernel)
theorem prime_1217 : Nat.Prime 1217 := by norm_num
theorem prime_41 : Nat.Prime 41 := by norm_num
theorem prime_5741 : Nat.Prime 5741 :=
  prime_of_cert 5741 2 [2, 2, 5, 7, 41]
    (by simp only [List.forall_mem_cons]; exact ⟨prime_2, prime_2, prime_5, prime_7, prime_41, by simp⟩)
    (by decide +kernel)
theorem prime_8094811 : Nat.Prime 8094811 :=
  prime_of_cert 8094811 3 [2, 3, 5, 47, 5741]
    (by simp only [List.forall_mem_cons]; exact ⟨prime_2, prime_3, prime_5, prime_47, prime_5741, by simp⟩)
    (by decide +kernel)
theorem prime_17338437577121 : Nat.Prime 17338437577121 :=
  prime_of_cert 17338437577121 3 [2, 2, 2, 2, 2, 5, 11, 1217, 8094811]
    (by simp only [List.forall_mem_cons]; exact ⟨prime_2, prime_2, prime_2, prime_2, prime_2, prime_5, prime_11, prime_1217, prime_8094811, by simp⟩)
    (by decide +kernel)
theorem prime_1531 : Nat.Prime 1531 := by norm_num
theorem prime_21737 : Nat.Prime 21737 :=
  prime_of_cert 21737 6 [2, 2, 2, 11, 13, 19]
    (by simp only [List.forall_mem_cons]; exact ⟨prime_2, prime_2, prime_2, prime_11, prime_13, prime_19, by simp⟩)
    (by decide +kernel)
theorem prime_173897 : Nat.Prime 173897 :=
  prime_of_cert 173897 3 [2, 2, 2, 21737]
    (by simp only [List.forall_mem_cons]; exact ⟨prime_2, prime_2, prime_2, prime_21737, by simp⟩)
    (by decide +kernel)
theorem prime_137 : Nat.Prime 137 := by norm_num
theorem prime_1746751 : Nat.Prime 1746751 :=
  prime_of_cert 1746751 3 [2, 3, 5, 5, 5, 17, 137]
    (by simp only [List.forall_mem_cons]; exact ⟨prime_2, prime_3, prime_5, prime_5, prime_5, prime_17, prime_137, by simp⟩)
    (by decide +kernel)
theorem prime_2693 : Nat.Prime 2693 := by norm_num
theorem prime_5387 : Nat.Prime 5387 :=
  prime_of_cert 5387 2 [2, 2693]
    (by simp only [List.forall_mem_cons]; exact ⟨prime_2, prime_2693, by simp⟩)
    (by decide +kernel)
theorem prime_204707 : Nat.Prime 204707 :=
  prime_of_cert 204707 2 [2, 19, 5387]
    (by simp only [List.forall_mem_cons]; exact ⟨prime_2, prime_19, prime_5387, by simp⟩)
    (by decide +kernel)
theorem prime_2865899 : Nat.Prime 2865899 :=
  prime_of_cert 2865899 2 [2, 7, 204707]
    (by simp only [List.forall_mem_cons]; exact ⟨prime_2, prime_7, prime_204707, by simp⟩)
    (by decide +kernel)
theorem prime_12088361983 : Nat.Prime 12088361983 :=
  prime_of_cert 12088361983 6 [2, 3, 19, 37, 2865899]
    (by simp only [List.forall_mem_cons]; exact ⟨prime_2, prime_3, prime_19, prime_37, prime_2865899, by simp⟩)
    (by decide +kernel)
theorem prime_26041 : Nat.Prime 26041 :=
  prime_of_cert 26041 13 [2, 2, 2, 3, 5, 7, 31]
    (by simp only [List.forall_mem_cons]; exact ⟨prime_2, prime_2, prime_2, prime_3, prime_5, prime_7, prime_31, by simp⟩)
    (by decide +kernel)
theorem prime_433 : Nat.Prime 433 := by norm_num
theorem prime_9446329 : Nat.Prime 9446329 :=
  prime_of_cert 9446329 17 [2, 2, 2, 3, 3, 3, 101, 433]
    (by simp only [List.forall_mem_cons]; exact ⟨prime_2, prime_2, prime_2, prime_3, prime_3, prime_3, prime_101, prime_433, by simp⟩)
    (by decide +kernel)
theorem prime_37785317 : Nat.Prime 37785317 :=
  prime_of_cert 37785317 2 [2, 2, 9446329]
    (by simp only [List.forall_mem_cons]; exact ⟨prime_2, prime_2, prime_9446329, by simp⟩)
    (by decide +kernel)
theorem prime_7871739519977 : Nat.Prime 7871739519977 :=
  prime_of_cert 7871739519977 3 [2, 2, 2, 26041, 37785317]
    (by simp only [List.forall_mem_cons]; exact ⟨prime_2, prime_2, prime_2, prime_26041, prime_37785317, by simp⟩)
    (by decide +kernel)
theorem prime_1392542208042011209 : Nat.Prime 1392542208042011209 :=
  prime_of_cert 1392542208042011209 11 [2, 2, 2, 3, 3, 3, 3, 3, 7, 13, 7871739519977]
    (by simp only [List.forall_mem_cons]; exact ⟨prime_2, prime_2, prime_2, prime_3, prime_3, prime_3, prime_3, prime_3, prime_7, prime_13, prime_7871739519977, by simp⟩)
    (by decide +kernel)
theorem prime_59 : Nat.Prime 59 := by norm_num
theorem prime_191 : Nat.Prime 191 := by norm_num
theorem prime_487 : Nat.Prime 487 := by norm_num
theorem prime_15661 : Nat.Prime 15661 :=
  prime_of_cert 15661 2 [2, 2, 3, 3, 3, 5, 29]
    (by simp only [List.forall_mem_cons]; exact ⟨prime_2, prime_2, prime_3, prime_3, prime_3, prime_5, prime_29, by simp⟩)
    (by decide +kernel)
theorem prime_41856465617 : Nat.Prime 41856465617 :=
  prime_of_cert 41856465617 3 [2, 2, 2, 2, 7, 7, 7, 487, 15661]
    (by simp only [List.forall_mem_cons]; exact ⟨prime_2, prime_2, prime_2, prime_2, prime_7, prime_7, prime_7, prime_487, prime_15661, by simp⟩)
    (by decide +kernel)
theorem prime_47967509597083 : Nat.Prime 47967509597083 :=
  prime_of_cert 47967509597083 2 [2, 3, 191, 41856465617]
    (by simp only [List.forall_mem_cons]; exact ⟨prime_2, prime_3, prime_191, prime_41856465617, by simp⟩)
    (by decide +kernel)
theorem prime_53531740710344629 : Nat.Prime 53531740710344629 :=
  prime_of_cert 53531740710344629 2 [2, 2, 3, 3, 31, 47967509597083]
    (by simp only [List.forall_mem_cons]; exact ⟨prime_2, prime_2, prime_3, prime_3, prime_31, prime_47967509597083, by simp⟩)
    (by decide +kernel)
theorem prime_3088888502468305782559 : Nat.Prime 3088888502468305782559 :=
  prime_of_cert 3088888502468305782559 3 [2, 3, 59, 163, 53531740710344629]
    (by simp only [List.forall_mem_cons]; exact ⟨prime_2, prime_3, prime_59, prime_163, prime_53531740710344629, by simp⟩)
    (by decide +kernel)
theorem prime_16975143302271505426897585653131126520182328037821729720833840187223 : Nat.Prime 16975143302271505426897585653131126520182328037821729720833840187223 :=
  prime_of_cert 16975143302271505426897585653131126520182328037821729720833840187223 3 [2, 3, 3, 3, 13, 1531, 173897, 1746751, 12088361983, 1392542208042011209, 3088888502468305782559]
    (by simp only [List.forall_mem_cons]; exact ⟨prime_2, prime_3, prime_3, prime_3, prime_13, prime_1531, prime_173897, prime_1746751, prime_12088361983, prime_1392542208042011209, prime_3088888502468305782559, by simp⟩)
    (by decide +kernel)
theorem prime_741640062627530801524787141901937474059940781097519023905821316144415759504705008092818711693940737 : Nat.Prime 741640062627530801524787141901937474059940781097519023905821316144415759504705008092818711693940737 :=
  prime_of_cert 741640062627530801524787141901937474059940781097519023905821316144415759504705008092818711693940737 3 [2, 2, 2, 2, 2, 2, 2, 2, 2, 2, 2, 1129, 26813, 40644377, 17338437577121, 16975143302271505426897585653131126520182328037821729720833840187223]
    (by simp only [List.forall_mem_cons]; exact ⟨prime_2, prime_2, prime_2, prime_2, prime_2, prime_2, prime_2, prime_2, prime_2, prime_2, prime_2, prime_1129, prime_26813, prime_40644377, prime_17338437577121, prime_16975143302271505426897585653131126520182328037821729720833840187223, by simp⟩)
    (by decide +kernel)

end Verif.Prime
