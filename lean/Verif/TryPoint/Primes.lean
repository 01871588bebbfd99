import Verif.Elligator.Prime
import Verif.TryPoint.Model

/-!
# Primality of the moduli of SM2 and secp256k1

From Lucas certificates; nothing is assumed.
-/

namespace Psi.TryPoint

open Psi.Elligator (lucas)

set_option maxRecDepth 10000

theorem prime_0 : Nat.Prime 173378833005251801 := by
  refine lucas _ 6
    [2, 2, 2, 5, 5, 2621, 24809, 13331831]
    (by norm_num) (by norm_num) ?_ (by decide +kernel) (by decide +kernel)
  intro q hq
  simp only [List.mem_cons, List.not_mem_nil, or_false] at hq
  rcases hq with rfl | rfl | rfl | rfl | rfl | rfl | rfl | rfl
  · norm_num
  · norm_num
  · norm_num
  · norm_num
  · norm_num
  · norm_num
  · norm_num
  · norm_num

theorem prime_1 : Nat.Prime 22149492674086928081353 := by
  refine lucas _ 5
    [2, 2, 2, 3, 5323, 173378833005251801]
    (by norm_num) (by norm_num) ?_ (by decide +kernel) (by decide +kernel)
  intro q hq
  simp only [List.mem_cons, List.not_mem_nil, or_false] at hq
  rcases hq with rfl | rfl | rfl | rfl | rfl | rfl
  · norm_num
  · norm_num
  · norm_num
  · norm_num
  · norm_num
  · exact prime_0

theorem prime_2 : Nat.Prime 132896956044521568488119 := by
  refine lucas _ 6
    [2, 3, 22149492674086928081353]
    (by norm_num) (by norm_num) ?_ (by decide +kernel) (by decide +kernel)
  intro q hq
  simp only [List.mem_cons, List.not_mem_nil, or_false] at hq
  rcases hq with rfl | rfl | rfl
  · norm_num
  · norm_num
  · exact prime_1

theorem prime_3 : Nat.Prime 255515944373312847190720520512484175977 := by
  refine lucas _ 3
    [2, 2, 2, 7, 7, 11, 1627, 2657, 4423, 41201, 96557, 7240687, 107590001]
    (by norm_num) (by norm_num) ?_ (by decide +kernel) (by decide +kernel)
  intro q hq
  simp only [List.mem_cons, List.not_mem_nil, or_false] at hq
  rcases hq with rfl | rfl | rfl | rfl | rfl | rfl | rfl | rfl | rfl | rfl | rfl | rfl | rfl
  · norm_num
  · norm_num
  · norm_num
  · norm_num
  · norm_num
  · norm_num
  · norm_num
  · norm_num
  · norm_num
  · norm_num
  · norm_num
  · norm_num
  · norm_num

theorem prime_4 : Nat.Prime 205115282021455665897114700593932402728804164701536103180137503955397371 := by
  refine lucas _ 10
    [2, 3, 5, 29, 29, 31, 7723, 132896956044521568488119, 255515944373312847190720520512484175977]
    (by norm_num) (by norm_num) ?_ (by decide +kernel) (by decide +kernel)
  intro q hq
  simp only [List.mem_cons, List.not_mem_nil, or_false] at hq
  rcases hq with rfl | rfl | rfl | rfl | rfl | rfl | rfl | rfl | rfl
  · norm_num
  · norm_num
  · norm_num
  · norm_num
  · norm_num
  · norm_num
  · norm_num
  · exact prime_2
  · exact prime_3

theorem prime_secp256k1 : Nat.Prime secp256k1.p := by
  show Nat.Prime 115792089237316195423570985008687907853269984665640564039457584007908834671663
  refine lucas _ 3
    [2, 3, 7, 13441, 205115282021455665897114700593932402728804164701536103180137503955397371]
    (by norm_num) (by norm_num) ?_ (by decide +kernel) (by decide +kernel)
  intro q hq
  simp only [List.mem_cons, List.not_mem_nil, or_false] at hq
  rcases hq with rfl | rfl | rfl | rfl | rfl
  · norm_num
  · norm_num
  · norm_num
  · norm_num
  · exact prime_4

theorem prime_6 : Nat.Prime 417514796639753 := by
  refine lucas _ 3
    [2, 2, 2, 7, 367, 2473, 8214737]
    (by norm_num) (by norm_num) ?_ (by decide +kernel) (by decide +kernel)
  intro q hq
  simp only [List.mem_cons, List.not_mem_nil, or_false] at hq
  rcases hq with rfl | rfl | rfl | rfl | rfl | rfl | rfl
  · norm_num
  · norm_num
  · norm_num
  · norm_num
  · norm_num
  · norm_num
  · norm_num

theorem prime_7 : Nat.Prime 4773264379806847 := by
  refine lucas _ 3
    [2, 3, 7, 11, 823, 34511, 363761]
    (by norm_num) (by norm_num) ?_ (by decide +kernel) (by decide +kernel)
  intro q hq
  simp only [List.mem_cons, List.not_mem_nil, or_false] at hq
  rcases hq with rfl | rfl | rfl | rfl | rfl | rfl | rfl
  · norm_num
  · norm_num
  · norm_num
  · norm_num
  · norm_num
  · norm_num
  · norm_num

theorem prime_8 : Nat.Prime 66013261729388519804782124120027 := by
  refine lucas _ 2
    [2, 13, 1213, 71209, 6158099, 4773264379806847]
    (by norm_num) (by norm_num) ?_ (by decide +kernel) (by decide +kernel)
  intro q hq
  simp only [List.mem_cons, List.not_mem_nil, or_false] at hq
  rcases hq with rfl | rfl | rfl | rfl | rfl | rfl
  · norm_num
  · norm_num
  · norm_num
  · norm_num
  · norm_num
  · exact prime_7

theorem prime_9 : Nat.Prime 3017783777 := by
  refine lucas _ 3
    [2, 2, 2, 2, 2, 7, 7, 337, 5711]
    (by norm_num) (by norm_num) ?_ (by decide +kernel) (by decide +kernel)
  intro q hq
  simp only [List.mem_cons, List.not_mem_nil, or_false] at hq
  rcases hq with rfl | rfl | rfl | rfl | rfl | rfl | rfl | rfl | rfl
  · norm_num
  · norm_num
  · norm_num
  · norm_num
  · norm_num
  · norm_num
  · norm_num
  · norm_num
  · norm_num

theorem prime_10 : Nat.Prime 4641351449027 := by
  refine lucas _ 2
    [2, 769, 3017783777]
    (by norm_num) (by norm_num) ?_ (by decide +kernel) (by decide +kernel)
  intro q hq
  simp only [List.mem_cons, List.not_mem_nil, or_false] at hq
  rcases hq with rfl | rfl | rfl
  · norm_num
  · norm_num
  · exact prime_9

theorem prime_11 : Nat.Prime 348253387243 := by
  refine lucas _ 3
    [2, 3, 61, 5303, 179429]
    (by norm_num) (by norm_num) ?_ (by decide +kernel) (by decide +kernel)
  intro q hq
  simp only [List.mem_cons, List.not_mem_nil, or_false] at hq
  rcases hq with rfl | rfl | rfl | rfl | rfl
  · norm_num
  · norm_num
  · norm_num
  · norm_num
  · norm_num

theorem prime_sm2 : Nat.Prime sm2.p := by
  show Nat.Prime 115792089210356248756420345214020892766250353991924191454421193933289684991999
  refine lucas _ 13
    [2, 43, 30223, 417514796639753, 66013261729388519804782124120027, 4641351449027, 348253387243]
    (by norm_num) (by norm_num) ?_ (by decide +kernel) (by decide +kernel)
  intro q hq
  simp only [List.mem_cons, List.not_mem_nil, or_false] at hq
  rcases hq with rfl | rfl | rfl | rfl | rfl | rfl | rfl
  · norm_num
  · norm_num
  · norm_num
  · exact prime_6
  · exact prime_8
  · exact prime_10
  · exact prime_11

end Psi.TryPoint
