import Verif.Proof.JumpCert
import Verif.Common.Prime

/-! Exact periods of the xoroshiro128 and xoshiro256 engines. -/

namespace Verif.Linear
open Verif.GF2 Verif.XorLinear Verif.Prime

/-- Check that `x^m - 1` is invertible modulo `p` (degree `16 j`), with inverse `u`. -/
def invCheck (p j m u : Nat) : Bool :=
  Nat.beq (mulmodF p j (Nat.xor (powmodF p j m (Nat.mul 16 j) 1) 1) u) 1

section
variable {V : Type} [AddCommGroup V] (hV : ∀ v : V, v + v = 0)
include hV

theorem fixed_of_invCheck (T : AddMonoid.End V) (p j m u : Nat) (hj : 0 < j)
    (hp1 : p < 2 ^ (16 * j + 1)) (hp2 : 2 ^ (16 * j) ≤ p) (hp : ev T p = 0)
    (hm : m < 2 ^ (16 * j)) (hu : u < 2 ^ (16 * j)) (hc : invCheck p j m u = true)
    (v : V) (hv : (T ^ m) v = v) : v = 0 := by
  have h2 := end_add_self hV
  rw [invCheck, Nat.beq_eq, mulmodF_eq, powmodF_eq] at hc
  have h1 : 1 < 2 ^ (16 * j) := Nat.one_lt_two_pow (by omega)
  have hpow : ev T (powmod p (16 * j) m (16 * j) 1) = T ^ m := by
    rw [ev_powmod T h2 p _ m hp1 hp2 hp _ _ h1, ev_one, one_pow, one_mul, Nat.mod_eq_of_lt hm]
  have hmul : ev T (Nat.xor (powmod p (16 * j) m (16 * j) 1) 1) * ev T u = 1 := by
    have := ev_mulmod T h2 p (16 * j) (Nat.xor (powmod p (16 * j) m (16 * j) 1) 1) u hp hu
    rw [← this]
    have hc' : mulmod p (16 * j) (Nat.xor (powmod p (16 * j) m (16 * j) 1) 1) u = 1 := hc
    rw [hc', ev_one]
  have hx : ev T (Nat.xor (powmod p (16 * j) m (16 * j) 1) 1) = T ^ m + 1 := by
    have := ev_xor T h2 (powmod p (16 * j) m (16 * j) 1) 1
    rw [hpow, ev_one] at this
    exact this
  rw [(commute_ev_ev T _ _).eq, hx] at hmul
  have hz : (T ^ m + 1) v = 0 := by
    rw [add_apply, hv]; exact hV v
  calc v = (ev T u * (T ^ m + 1)) v := by rw [hmul]; rfl
    _ = ev T u ((T ^ m + 1) v) := rfl
    _ = 0 := by rw [hz, map_zero]

/-- `T^(2^d) = T` together with injectivity gives `T^(2^d - 1) = 1`. -/
theorem pow_period (T : AddMonoid.End V) (p d e : Nat) (hd : 1 < d)
    (hp1 : p < 2 ^ (d + 1)) (hp2 : 2 ^ d ≤ p) (hodd : p % 2 = 1) (hp : ev T p = 0)
    (hc : sqn p d e 2 = 2) : T ^ (2 ^ e - 1) = 1 := by
  have h2 := end_add_self hV
  have h2d : 2 < 2 ^ d := lt_of_lt_of_le (by decide : 2 < 2 ^ 2) (Nat.pow_le_pow_right (by decide) hd)
  have h := ev_sqn' T h2 p d e 2 hp1 hp2 h2d hp
  rw [hc, ev_two] at h
  have hinj := injective_of_ann hV T p hodd hp
  ext v
  apply hinj
  have hpos : 0 < 2 ^ e := by positivity
  calc T ((T ^ (2 ^ e - 1)) v) = (T * T ^ (2 ^ e - 1)) v := rfl
    _ = (T ^ (2 ^ e)) v := by rw [← pow_succ', Nat.sub_add_cancel hpos]
    _ = T v := by rw [← h]

end

theorem xoroPlus_order : sqn xoroPlusPoly 128 128 2 = 2 := by
  have h : sqnF xoroPlusPoly 8 128 2 = 2 := by decide +kernel
  rw [sqnF_eq] at h; exact h
theorem xoroPlus_inv_3 : invCheck xoroPlusPoly 8 113427455640312821154458202477256070485
    54068298935904287807113292502129625048 = true := by decide +kernel
theorem xoroPlus_inv_5 : invCheck xoroPlusPoly 8 68056473384187692692674921486353642291
    252984460828109805362750244483772499955 = true := by decide +kernel
theorem xoroPlus_inv_17 : invCheck xoroPlusPoly 8 20016609818878733144904388672456953615
    14638274987662255644002560645656116664 = true := by decide +kernel
theorem xoroPlus_inv_257 : invCheck xoroPlusPoly 8 1324055902416102970674609367438786815
    64995446946714984731522728281250855382 = true := by decide +kernel
theorem xoroPlus_inv_641 : invCheck xoroPlusPoly 8 530861726865738632548166314246128255
    147226009004791688851259506029169943670 = true := by decide +kernel
theorem xoroPlus_inv_65537 : invCheck xoroPlusPoly 8 5192217631581220737344928932233215
    79856766895708353110086771044499417758 = true := by decide +kernel
theorem xoroPlus_inv_274177 : invCheck xoroPlusPoly 8 1241104713090224429705535502364415
    73455679920047619786217816082196946620 = true := by decide +kernel
theorem xoroPlus_inv_6700417 : invCheck xoroPlusPoly 8 50785252159819077448966923615615
    334912597042788931219965943129196371669 = true := by decide +kernel
theorem xoroPlus_inv_67280421310721 : invCheck xoroPlusPoly 8 5057672949897463733145855
    114123264804619493085611495459400395026 = true := by decide +kernel

theorem xoroPlus_period (v : S2) (hv : v ≠ 0) (n : Nat) :
    xoroPlusEnd^[n] v = v ↔ 2 ^ 128 - 1 ∣ n := by
  have hN : 2 ^ 128 - 1 = 340282366920938463463374607431768211455 := by norm_num
  have h1 : xoroPlusEnd ^ (2 ^ 128 - 1) = 1 :=
    pow_period S2.add_self xoroPlusEnd xoroPlusPoly 128 128 (by decide) (by decide +kernel) (by decide +kernel)
      (by decide +kernel) xoroPlus_ann xoroPlus_order
  refine period_of_cert xoroPlusEnd (2 ^ 128 - 1) h1 ?_ v hv n
  intro q hq hqd w hw
  rw [hN] at hqd hw
  have hprod : 340282366920938463463374607431768211455 = [3, 5, 17, 257, 641, 65537, 274177, 6700417, 67280421310721].prod := by norm_num
  rw [hprod, Prime.dvd_prod_iff hq.prime] at hqd
  obtain ⟨r, hr, hqr⟩ := hqd
  have hb : xoroPlusPoly < 2 ^ (16 * 8 + 1) := by decide +kernel
  have hb2 : 2 ^ (16 * 8) ≤ xoroPlusPoly := by decide +kernel
  simp only [List.mem_cons, List.not_mem_nil, or_false] at hr
  rcases hr with rfl | rfl | rfl | rfl | rfl | rfl | rfl | rfl | rfl
  · rw [(Nat.prime_dvd_prime_iff_eq hq prime_3).mp hqr, show 340282366920938463463374607431768211455 / 3 = 113427455640312821154458202477256070485 by norm_num] at hw
    exact fixed_of_invCheck S2.add_self xoroPlusEnd xoroPlusPoly 8 _ _ (by decide) hb hb2 xoroPlus_ann
      (by norm_num) (by norm_num) xoroPlus_inv_3 w hw
  · rw [(Nat.prime_dvd_prime_iff_eq hq prime_5).mp hqr, show 340282366920938463463374607431768211455 / 5 = 68056473384187692692674921486353642291 by norm_num] at hw
    exact fixed_of_invCheck S2.add_self xoroPlusEnd xoroPlusPoly 8 _ _ (by decide) hb hb2 xoroPlus_ann
      (by norm_num) (by norm_num) xoroPlus_inv_5 w hw
  · rw [(Nat.prime_dvd_prime_iff_eq hq prime_17).mp hqr, show 340282366920938463463374607431768211455 / 17 = 20016609818878733144904388672456953615 by norm_num] at hw
    exact fixed_of_invCheck S2.add_self xoroPlusEnd xoroPlusPoly 8 _ _ (by decide) hb hb2 xoroPlus_ann
      (by norm_num) (by norm_num) xoroPlus_inv_17 w hw
  · rw [(Nat.prime_dvd_prime_iff_eq hq prime_257).mp hqr, show 340282366920938463463374607431768211455 / 257 = 1324055902416102970674609367438786815 by norm_num] at hw
    exact fixed_of_invCheck S2.add_self xoroPlusEnd xoroPlusPoly 8 _ _ (by decide) hb hb2 xoroPlus_ann
      (by norm_num) (by norm_num) xoroPlus_inv_257 w hw
  · rw [(Nat.prime_dvd_prime_iff_eq hq prime_641).mp hqr, show 340282366920938463463374607431768211455 / 641 = 530861726865738632548166314246128255 by norm_num] at hw
    exact fixed_of_invCheck S2.add_self xoroPlusEnd xoroPlusPoly 8 _ _ (by decide) hb hb2 xoroPlus_ann
      (by norm_num) (by norm_num) xoroPlus_inv_641 w hw
  · rw [(Nat.prime_dvd_prime_iff_eq hq prime_65537).mp hqr, show 340282366920938463463374607431768211455 / 65537 = 5192217631581220737344928932233215 by norm_num] at hw
    exact fixed_of_invCheck S2.add_self xoroPlusEnd xoroPlusPoly 8 _ _ (by decide) hb hb2 xoroPlus_ann
      (by norm_num) (by norm_num) xoroPlus_inv_65537 w hw
  · rw [(Nat.prime_dvd_prime_iff_eq hq prime_274177).mp hqr, show 340282366920938463463374607431768211455 / 274177 = 1241104713090224429705535502364415 by norm_num] at hw
    exact fixed_of_invCheck S2.add_self xoroPlusEnd xoroPlusPoly 8 _ _ (by decide) hb hb2 xoroPlus_ann
      (by norm_num) (by norm_num) xoroPlus_inv_274177 w hw
  · rw [(Nat.prime_dvd_prime_iff_eq hq prime_6700417).mp hqr, show 340282366920938463463374607431768211455 / 6700417 = 50785252159819077448966923615615 by norm_num] at hw
    exact fixed_of_invCheck S2.add_self xoroPlusEnd xoroPlusPoly 8 _ _ (by decide) hb hb2 xoroPlus_ann
      (by norm_num) (by norm_num) xoroPlus_inv_6700417 w hw
  · rw [(Nat.prime_dvd_prime_iff_eq hq prime_67280421310721).mp hqr, show 340282366920938463463374607431768211455 / 67280421310721 = 5057672949897463733145855 by norm_num] at hw
    exact fixed_of_invCheck S2.add_self xoroPlusEnd xoroPlusPoly 8 _ _ (by decide) hb hb2 xoroPlus_ann
      (by norm_num) (by norm_num) xoroPlus_inv_67280421310721 w hw

theorem xoroPP_order : sqn xoroPPPoly 128 128 2 = 2 := by
  have h : sqnF xoroPPPoly 8 128 2 = 2 := by decide +kernel
  rw [sqnF_eq] at h; exact h
theorem xoroPP_inv_3 : invCheck xoroPPPoly 8 113427455640312821154458202477256070485
    278529982676213476744412065422077734479 = true := by decide +kernel
theorem xoroPP_inv_5 : invCheck xoroPPPoly 8 68056473384187692692674921486353642291
    162338409149790339622126054123205496956 = true := by decide +kernel
theorem xoroPP_inv_17 : invCheck xoroPPPoly 8 20016609818878733144904388672456953615
    23452566297833957891344785341742775765 = true := by decide +kernel
theorem xoroPP_inv_257 : invCheck xoroPPPoly 8 1324055902416102970674609367438786815
    30154837806964610750210453339429300368 = true := by decide +kernel
theorem xoroPP_inv_641 : invCheck xoroPPPoly 8 530861726865738632548166314246128255
    240060802740658076742527034391489361899 = true := by decide +kernel
theorem xoroPP_inv_65537 : invCheck xoroPPPoly 8 5192217631581220737344928932233215
    291201654827679613200345867387529183305 = true := by decide +kernel
theorem xoroPP_inv_274177 : invCheck xoroPPPoly 8 1241104713090224429705535502364415
    215630522619712348248278734873654154085 = true := by decide +kernel
theorem xoroPP_inv_6700417 : invCheck xoroPPPoly 8 50785252159819077448966923615615
    212735017662463742435434023614870334243 = true := by decide +kernel
theorem xoroPP_inv_67280421310721 : invCheck xoroPPPoly 8 5057672949897463733145855
    339062055186107189494927606825919791174 = true := by decide +kernel

theorem xoroPP_period (v : S2) (hv : v ≠ 0) (n : Nat) :
    xoroPPEnd^[n] v = v ↔ 2 ^ 128 - 1 ∣ n := by
  have hN : 2 ^ 128 - 1 = 340282366920938463463374607431768211455 := by norm_num
  have h1 : xoroPPEnd ^ (2 ^ 128 - 1) = 1 :=
    pow_period S2.add_self xoroPPEnd xoroPPPoly 128 128 (by decide) (by decide +kernel) (by decide +kernel)
      (by decide +kernel) xoroPP_ann xoroPP_order
  refine period_of_cert xoroPPEnd (2 ^ 128 - 1) h1 ?_ v hv n
  intro q hq hqd w hw
  rw [hN] at hqd hw
  have hprod : 340282366920938463463374607431768211455 = [3, 5, 17, 257, 641, 65537, 274177, 6700417, 67280421310721].prod := by norm_num
  rw [hprod, Prime.dvd_prod_iff hq.prime] at hqd
  obtain ⟨r, hr, hqr⟩ := hqd
  have hb : xoroPPPoly < 2 ^ (16 * 8 + 1) := by decide +kernel
  have hb2 : 2 ^ (16 * 8) ≤ xoroPPPoly := by decide +kernel
  simp only [List.mem_cons, List.not_mem_nil, or_false] at hr
  rcases hr with rfl | rfl | rfl | rfl | rfl | rfl | rfl | rfl | rfl
  · rw [(Nat.prime_dvd_prime_iff_eq hq prime_3).mp hqr, show 340282366920938463463374607431768211455 / 3 = 113427455640312821154458202477256070485 by norm_num] at hw
    exact fixed_of_invCheck S2.add_self xoroPPEnd xoroPPPoly 8 _ _ (by decide) hb hb2 xoroPP_ann
      (by norm_num) (by norm_num) xoroPP_inv_3 w hw
  · rw [(Nat.prime_dvd_prime_iff_eq hq prime_5).mp hqr, show 340282366920938463463374607431768211455 / 5 = 68056473384187692692674921486353642291 by norm_num] at hw
    exact fixed_of_invCheck S2.add_self xoroPPEnd xoroPPPoly 8 _ _ (by decide) hb hb2 xoroPP_ann
      (by norm_num) (by norm_num) xoroPP_inv_5 w hw
  · rw [(Nat.prime_dvd_prime_iff_eq hq prime_17).mp hqr, show 340282366920938463463374607431768211455 / 17 = 20016609818878733144904388672456953615 by norm_num] at hw
    exact fixed_of_invCheck S2.add_self xoroPPEnd xoroPPPoly 8 _ _ (by decide) hb hb2 xoroPP_ann
      (by norm_num) (by norm_num) xoroPP_inv_17 w hw
  · rw [(Nat.prime_dvd_prime_iff_eq hq prime_257).mp hqr, show 340282366920938463463374607431768211455 / 257 = 1324055902416102970674609367438786815 by norm_num] at hw
    exact fixed_of_invCheck S2.add_self xoroPPEnd xoroPPPoly 8 _ _ (by decide) hb hb2 xoroPP_ann
      (by norm_num) (by norm_num) xoroPP_inv_257 w hw
  · rw [(Nat.prime_dvd_prime_iff_eq hq prime_641).mp hqr, show 340282366920938463463374607431768211455 / 641 = 530861726865738632548166314246128255 by norm_num] at hw
    exact fixed_of_invCheck S2.add_self xoroPPEnd xoroPPPoly 8 _ _ (by decide) hb hb2 xoroPP_ann
      (by norm_num) (by norm_num) xoroPP_inv_641 w hw
  · rw [(Nat.prime_dvd_prime_iff_eq hq prime_65537).mp hqr, show 340282366920938463463374607431768211455 / 65537 = 5192217631581220737344928932233215 by norm_num] at hw
    exact fixed_of_invCheck S2.add_self xoroPPEnd xoroPPPoly 8 _ _ (by decide) hb hb2 xoroPP_ann
      (by norm_num) (by norm_num) xoroPP_inv_65537 w hw
  · rw [(Nat.prime_dvd_prime_iff_eq hq prime_274177).mp hqr, show 340282366920938463463374607431768211455 / 274177 = 1241104713090224429705535502364415 by norm_num] at hw
    exact fixed_of_invCheck S2.add_self xoroPPEnd xoroPPPoly 8 _ _ (by decide) hb hb2 xoroPP_ann
      (by norm_num) (by norm_num) xoroPP_inv_274177 w hw
  · rw [(Nat.prime_dvd_prime_iff_eq hq prime_6700417).mp hqr, show 340282366920938463463374607431768211455 / 6700417 = 50785252159819077448966923615615 by norm_num] at hw
    exact fixed_of_invCheck S2.add_self xoroPPEnd xoroPPPoly 8 _ _ (by decide) hb hb2 xoroPP_ann
      (by norm_num) (by norm_num) xoroPP_inv_6700417 w hw
  · rw [(Nat.prime_dvd_prime_iff_eq hq prime_67280421310721).mp hqr, show 340282366920938463463374607431768211455 / 67280421310721 = 5057672949897463733145855 by norm_num] at hw
    exact fixed_of_invCheck S2.add_self xoroPPEnd xoroPPPoly 8 _ _ (by decide) hb hb2 xoroPP_ann
      (by norm_num) (by norm_num) xoroPP_inv_67280421310721 w hw

theorem xosh256_order : sqn xosh256Poly 256 256 2 = 2 := by
  have h : sqnF xosh256Poly 16 256 2 = 2 := by decide +kernel
  rw [sqnF_eq] at h; exact h
theorem xosh256_inv_3 : invCheck xosh256Poly 16 38597363079105398474523661669562635951089994888546854679819194669304376546645
    38373520178097791684943366336456012603712921536183214402132921942189381965699 = true := by decide +kernel
theorem xosh256_inv_5 : invCheck xosh256Poly 16 23158417847463239084714197001737581570653996933128112807891516801582625927987
    4384426445939095924597427982802969713665598903842122073255769710606743205919 = true := by decide +kernel
theorem xosh256_inv_17 : invCheck xosh256Poly 16 6811299366900952671974763824040465167839410862684739061144563765171360567055
    110541785489121634118332740830866833243599279033506448544894358724282201046735 = true := by decide +kernel
theorem xosh256_inv_257 : invCheck xosh256Poly 16 450552876409790643671482431940419874915447411150352389258589821042463539455
    44126305632520792786860708777746553288961840011855851091728988366567368805750 = true := by decide +kernel
theorem xosh256_inv_641 : invCheck xosh256Poly 16 180642884925610289272341630278764286822574079041560942339247400948382417535
    39264373639335806360310168411117371156813249361714983888383607331397034094847 = true := by decide +kernel
theorem xosh256_inv_65537 : invCheck xosh256Poly 16 1766820105243087041267848467410591083712559083657179364930612997358944255
    41364558615377796321236925488928968777520935874163467287884241121016861849919 = true := by decide +kernel
theorem xosh256_inv_274177 : invCheck xosh256Poly 16 422326049367073807881663979869529201403728192611490256438204459192102655
    16660084877603088988606459432931183206286717631952300401256307603774371687109 = true := by decide +kernel
theorem xosh256_inv_6700417 : invCheck xosh256Poly 16 17281325809619937896935516850471830014948321076977830490170624307101055
    12693949399860525965997211201124504574410961553597193866048805161284874112054 = true := by decide +kernel
theorem xosh256_inv_67280421310721 : invCheck xosh256Poly 16 1721036922503113971692907638171526209875755521904893141463060735
    88533940771238073175004357670013658451311214678294006315637054256668220558584 = true := by decide +kernel
theorem xosh256_inv_59649589127497217 : invCheck xosh256Poly 16 1941205143757452242770874767385119893385096602219740994029055
    19469530048050167360678825071135847039656869457463300798095665008845516373222 = true := by decide +kernel
theorem xosh256_inv_5704689200685129054721 : invCheck xosh256Poly 16 20297703374166229616474325006177763232573806344580020735
    5726328750835857029458229068837577261900092640816380810868545732223033545189 = true := by decide +kernel

theorem xosh256_period (v : S4) (hv : v ≠ 0) (n : Nat) :
    xosh256End^[n] v = v ↔ 2 ^ 256 - 1 ∣ n := by
  have hN : 2 ^ 256 - 1 = 115792089237316195423570985008687907853269984665640564039457584007913129639935 := by norm_num
  have h1 : xosh256End ^ (2 ^ 256 - 1) = 1 :=
    pow_period S4.add_self xosh256End xosh256Poly 256 256 (by decide) (by decide +kernel) (by decide +kernel)
      (by decide +kernel) xosh256_ann xosh256_order
  refine period_of_cert xosh256End (2 ^ 256 - 1) h1 ?_ v hv n
  intro q hq hqd w hw
  rw [hN] at hqd hw
  have hprod : 115792089237316195423570985008687907853269984665640564039457584007913129639935 = [3, 5, 17, 257, 641, 65537, 274177, 6700417, 67280421310721, 59649589127497217, 5704689200685129054721].prod := by norm_num
  rw [hprod, Prime.dvd_prod_iff hq.prime] at hqd
  obtain ⟨r, hr, hqr⟩ := hqd
  have hb : xosh256Poly < 2 ^ (16 * 16 + 1) := by decide +kernel
  have hb2 : 2 ^ (16 * 16) ≤ xosh256Poly := by decide +kernel
  simp only [List.mem_cons, List.not_mem_nil, or_false] at hr
  rcases hr with rfl | rfl | rfl | rfl | rfl | rfl | rfl | rfl | rfl | rfl | rfl
  · rw [(Nat.prime_dvd_prime_iff_eq hq prime_3).mp hqr, show 115792089237316195423570985008687907853269984665640564039457584007913129639935 / 3 = 38597363079105398474523661669562635951089994888546854679819194669304376546645 by norm_num] at hw
    exact fixed_of_invCheck S4.add_self xosh256End xosh256Poly 16 _ _ (by decide) hb hb2 xosh256_ann
      (by norm_num) (by norm_num) xosh256_inv_3 w hw
  · rw [(Nat.prime_dvd_prime_iff_eq hq prime_5).mp hqr, show 115792089237316195423570985008687907853269984665640564039457584007913129639935 / 5 = 23158417847463239084714197001737581570653996933128112807891516801582625927987 by norm_num] at hw
    exact fixed_of_invCheck S4.add_self xosh256End xosh256Poly 16 _ _ (by decide) hb hb2 xosh256_ann
      (by norm_num) (by norm_num) xosh256_inv_5 w hw
  · rw [(Nat.prime_dvd_prime_iff_eq hq prime_17).mp hqr, show 115792089237316195423570985008687907853269984665640564039457584007913129639935 / 17 = 6811299366900952671974763824040465167839410862684739061144563765171360567055 by norm_num] at hw
    exact fixed_of_invCheck S4.add_self xosh256End xosh256Poly 16 _ _ (by decide) hb hb2 xosh256_ann
      (by norm_num) (by norm_num) xosh256_inv_17 w hw
  · rw [(Nat.prime_dvd_prime_iff_eq hq prime_257).mp hqr, show 115792089237316195423570985008687907853269984665640564039457584007913129639935 / 257 = 450552876409790643671482431940419874915447411150352389258589821042463539455 by norm_num] at hw
    exact fixed_of_invCheck S4.add_self xosh256End xosh256Poly 16 _ _ (by decide) hb hb2 xosh256_ann
      (by norm_num) (by norm_num) xosh256_inv_257 w hw
  · rw [(Nat.prime_dvd_prime_iff_eq hq prime_641).mp hqr, show 115792089237316195423570985008687907853269984665640564039457584007913129639935 / 641 = 180642884925610289272341630278764286822574079041560942339247400948382417535 by norm_num] at hw
    exact fixed_of_invCheck S4.add_self xosh256End xosh256Poly 16 _ _ (by decide) hb hb2 xosh256_ann
      (by norm_num) (by norm_num) xosh256_inv_641 w hw
  · rw [(Nat.prime_dvd_prime_iff_eq hq prime_65537).mp hqr, show 115792089237316195423570985008687907853269984665640564039457584007913129639935 / 65537 = 1766820105243087041267848467410591083712559083657179364930612997358944255 by norm_num] at hw
    exact fixed_of_invCheck S4.add_self xosh256End xosh256Poly 16 _ _ (by decide) hb hb2 xosh256_ann
      (by norm_num) (by norm_num) xosh256_inv_65537 w hw
  · rw [(Nat.prime_dvd_prime_iff_eq hq prime_274177).mp hqr, show 115792089237316195423570985008687907853269984665640564039457584007913129639935 / 274177 = 422326049367073807881663979869529201403728192611490256438204459192102655 by norm_num] at hw
    exact fixed_of_invCheck S4.add_self xosh256End xosh256Poly 16 _ _ (by decide) hb hb2 xosh256_ann
      (by norm_num) (by norm_num) xosh256_inv_274177 w hw
  · rw [(Nat.prime_dvd_prime_iff_eq hq prime_6700417).mp hqr, show 115792089237316195423570985008687907853269984665640564039457584007913129639935 / 6700417 = 17281325809619937896935516850471830014948321076977830490170624307101055 by norm_num] at hw
    exact fixed_of_invCheck S4.add_self xosh256End xosh256Poly 16 _ _ (by decide) hb hb2 xosh256_ann
      (by norm_num) (by norm_num) xosh256_inv_6700417 w hw
  · rw [(Nat.prime_dvd_prime_iff_eq hq prime_67280421310721).mp hqr, show 115792089237316195423570985008687907853269984665640564039457584007913129639935 / 67280421310721 = 1721036922503113971692907638171526209875755521904893141463060735 by norm_num] at hw
    exact fixed_of_invCheck S4.add_self xosh256End xosh256Poly 16 _ _ (by decide) hb hb2 xosh256_ann
      (by norm_num) (by norm_num) xosh256_inv_67280421310721 w hw
  · rw [(Nat.prime_dvd_prime_iff_eq hq prime_59649589127497217).mp hqr, show 115792089237316195423570985008687907853269984665640564039457584007913129639935 / 59649589127497217 = 1941205143757452242770874767385119893385096602219740994029055 by norm_num] at hw
    exact fixed_of_invCheck S4.add_self xosh256End xosh256Poly 16 _ _ (by decide) hb hb2 xosh256_ann
      (by norm_num) (by norm_num) xosh256_inv_59649589127497217 w hw
  · rw [(Nat.prime_dvd_prime_iff_eq hq prime_5704689200685129054721).mp hqr, show 115792089237316195423570985008687907853269984665640564039457584007913129639935 / 5704689200685129054721 = 20297703374166229616474325006177763232573806344580020735 by norm_num] at hw
    exact fixed_of_invCheck S4.add_self xosh256End xosh256Poly 16 _ _ (by decide) hb hb2 xosh256_ann
      (by norm_num) (by norm_num) xosh256_inv_5704689200685129054721 w hw

end Verif.Linear
