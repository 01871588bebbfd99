import Verif.Elligator.Prime

/-!
# The primes in the orders of Curve25519 and of its twist

That they are prime is proved from Lucas certificates; nothing about them is assumed.
-/

namespace Psi.X25519

open Psi.Elligator

/-- The order of the subgroup of Curve25519 that the base point generates (RFC 7748, section 4.1). -/
def ordL : Nat := 2 ^ 252 + 27742317777372353535851937790883648493

/-- The odd part of the order of the twist of Curve25519. -/
def ordT : Nat := 2 ^ 253 - 55484635554744707071703875581767296995

set_option maxRecDepth 10000

theorem prime_0 : Nat.Prime (14741173) := by
  refine lucas _ 2 [2, 2, 3, 3, 409477] (by norm_num) (by norm_num) ?_ (by decide +kernel) (by decide +kernel)
  intro q hq
  simp only [List.mem_cons, List.not_mem_nil, or_false] at hq
  rcases hq with rfl | rfl | rfl | rfl | rfl
  · norm_num
  · norm_num
  · norm_num
  · norm_num
  · norm_num

theorem prime_1 : Nat.Prime (58964693) := by
  refine lucas _ 2 [2, 2, 14741173] (by norm_num) (by norm_num) ?_ (by decide +kernel) (by decide +kernel)
  intro q hq
  simp only [List.mem_cons, List.not_mem_nil, or_false] at hq
  rcases hq with rfl | rfl | rfl
  · norm_num
  · norm_num
  · exact prime_0

theorem prime_2 : Nat.Prime (3044861653679985063343) := by
  refine lucas _ 5 [2, 3, 11, 30703, 82163, 132667, 137849] (by norm_num) (by norm_num) ?_ (by decide +kernel) (by decide +kernel)
  intro q hq
  simp only [List.mem_cons, List.not_mem_nil, or_false] at hq
  rcases hq with rfl | rfl | rfl | rfl | rfl | rfl | rfl
  · norm_num
  · norm_num
  · norm_num
  · norm_num
  · norm_num
  · norm_num
  · norm_num

theorem prime_3 : Nat.Prime (198211423230930754013084525763697) := by
  refine lucas _ 5 [2, 2, 2, 2, 3, 23, 58964693, 3044861653679985063343] (by norm_num) (by norm_num) ?_ (by decide +kernel) (by decide +kernel)
  intro q hq
  simp only [List.mem_cons, List.not_mem_nil, or_false] at hq
  rcases hq with rfl | rfl | rfl | rfl | rfl | rfl | rfl | rfl
  · norm_num
  · norm_num
  · norm_num
  · norm_num
  · norm_num
  · norm_num
  · exact prime_1
  · exact prime_2

theorem prime_4 : Nat.Prime (292386187) := by
  refine lucas _ 2 [2, 3, 3, 3, 3, 307, 5879] (by norm_num) (by norm_num) ?_ (by decide +kernel) (by decide +kernel)
  intro q hq
  simp only [List.mem_cons, List.not_mem_nil, or_false] at hq
  rcases hq with rfl | rfl | rfl | rfl | rfl | rfl | rfl
  · norm_num
  · norm_num
  · norm_num
  · norm_num
  · norm_num
  · norm_num
  · norm_num

theorem prime_5 : Nat.Prime (213441916511) := by
  refine lucas _ 13 [2, 5, 73, 292386187] (by norm_num) (by norm_num) ?_ (by decide +kernel) (by decide +kernel)
  intro q hq
  simp only [List.mem_cons, List.not_mem_nil, or_false] at hq
  rcases hq with rfl | rfl | rfl | rfl
  · norm_num
  · norm_num
  · norm_num
  · exact prime_4

theorem prime_6 : Nat.Prime (1257559732178653) := by
  refine lucas _ 2 [2, 2, 3, 7, 23, 531581, 1224481] (by norm_num) (by norm_num) ?_ (by decide +kernel) (by decide +kernel)
  intro q hq
  simp only [List.mem_cons, List.not_mem_nil, or_false] at hq
  rcases hq with rfl | rfl | rfl | rfl | rfl | rfl | rfl
  · norm_num
  · norm_num
  · norm_num
  · norm_num
  · norm_num
  · norm_num
  · norm_num

theorem prime_7 : Nat.Prime (4434155615661930479) := by
  refine lucas _ 17 [2, 41, 43, 1257559732178653] (by norm_num) (by norm_num) ?_ (by decide +kernel) (by decide +kernel)
  intro q hq
  simp only [List.mem_cons, List.not_mem_nil, or_false] at hq
  rcases hq with rfl | rfl | rfl | rfl
  · norm_num
  · norm_num
  · norm_num
  · exact prime_6

theorem prime_8 : Nat.Prime (172054593956031949258510691) := by
  refine lucas _ 2 [2, 5, 1361, 2851, 4434155615661930479] (by norm_num) (by norm_num) ?_ (by decide +kernel) (by decide +kernel)
  intro q hq
  simp only [List.mem_cons, List.not_mem_nil, or_false] at hq
  rcases hq with rfl | rfl | rfl | rfl | rfl
  · norm_num
  · norm_num
  · norm_num
  · norm_num
  · exact prime_7

theorem prime_9 : Nat.Prime (19757330305831588566944191468367130476339) := by
  refine lucas _ 2 [2, 269, 213441916511, 172054593956031949258510691] (by norm_num) (by norm_num) ?_ (by decide +kernel) (by decide +kernel)
  intro q hq
  simp only [List.mem_cons, List.not_mem_nil, or_false] at hq
  rcases hq with rfl | rfl | rfl | rfl
  · norm_num
  · norm_num
  · exact prime_5
  · exact prime_8

theorem prime_10 : Nat.Prime (276602624281642239937218680557139826668747) := by
  refine lucas _ 2 [2, 7, 19757330305831588566944191468367130476339] (by norm_num) (by norm_num) ?_ (by decide +kernel) (by decide +kernel)
  intro q hq
  simp only [List.mem_cons, List.not_mem_nil, or_false] at hq
  rcases hq with rfl | rfl | rfl
  · norm_num
  · norm_num
  · exact prime_9

theorem ordL_prime : Nat.Prime (ordL) := by
  rw [ordL]
  refine lucas _ 2 [2, 2, 3, 11, 198211423230930754013084525763697, 276602624281642239937218680557139826668747] (by norm_num) (by norm_num) ?_ (by decide +kernel) (by decide +kernel)
  intro q hq
  simp only [List.mem_cons, List.not_mem_nil, or_false] at hq
  rcases hq with rfl | rfl | rfl | rfl | rfl | rfl
  · norm_num
  · norm_num
  · norm_num
  · norm_num
  · exact prime_3
  · exact prime_10

theorem prime_12 : Nat.Prime (1110318119) := by
  refine lucas _ 7 [2, 7, 13, 487, 12527] (by norm_num) (by norm_num) ?_ (by decide +kernel) (by decide +kernel)
  intro q hq
  simp only [List.mem_cons, List.not_mem_nil, or_false] at hq
  rcases hq with rfl | rfl | rfl | rfl | rfl
  · norm_num
  · norm_num
  · norm_num
  · norm_num
  · norm_num

theorem prime_13 : Nat.Prime (2220636239) := by
  refine lucas _ 23 [2, 1110318119] (by norm_num) (by norm_num) ?_ (by decide +kernel) (by decide +kernel)
  intro q hq
  simp only [List.mem_cons, List.not_mem_nil, or_false] at hq
  rcases hq with rfl | rfl
  · norm_num
  · exact prime_12

theorem prime_14 : Nat.Prime (743104567) := by
  refine lucas _ 6 [2, 3, 3, 3637, 11351] (by norm_num) (by norm_num) ?_ (by decide +kernel) (by decide +kernel)
  intro q hq
  simp only [List.mem_cons, List.not_mem_nil, or_false] at hq
  rcases hq with rfl | rfl | rfl | rfl | rfl
  · norm_num
  · norm_num
  · norm_num
  · norm_num
  · norm_num

theorem prime_15 : Nat.Prime (1013266244677) := by
  refine lucas _ 2 [2, 2, 3, 7, 383, 3911, 8053] (by norm_num) (by norm_num) ?_ (by decide +kernel) (by decide +kernel)
  intro q hq
  simp only [List.mem_cons, List.not_mem_nil, or_false] at hq
  rcases hq with rfl | rfl | rfl | rfl | rfl | rfl | rfl
  · norm_num
  · norm_num
  · norm_num
  · norm_num
  · norm_num
  · norm_num
  · norm_num

theorem prime_16 : Nat.Prime (5171003929967) := by
  refine lucas _ 5 [2, 7, 31, 181, 2281, 28859] (by norm_num) (by norm_num) ?_ (by decide +kernel) (by decide +kernel)
  intro q hq
  simp only [List.mem_cons, List.not_mem_nil, or_false] at hq
  rcases hq with rfl | rfl | rfl | rfl | rfl | rfl
  · norm_num
  · norm_num
  · norm_num
  · norm_num
  · norm_num
  · norm_num

theorem prime_17 : Nat.Prime (22561162540501040539) := by
  refine lucas _ 3 [2, 3, 727169, 5171003929967] (by norm_num) (by norm_num) ?_ (by decide +kernel) (by decide +kernel)
  intro q hq
  simp only [List.mem_cons, List.not_mem_nil, or_false] at hq
  rcases hq with rfl | rfl | rfl | rfl
  · norm_num
  · norm_num
  · norm_num
  · exact prime_16

theorem prime_18 : Nat.Prime (203852586375664218368381551393371968928013) := by
  refine lucas _ 2 [2, 2, 3, 743104567, 1013266244677, 22561162540501040539] (by norm_num) (by norm_num) ?_ (by decide +kernel) (by decide +kernel)
  intro q hq
  simp only [List.mem_cons, List.not_mem_nil, or_false] at hq
  rcases hq with rfl | rfl | rfl | rfl | rfl | rfl
  · norm_num
  · norm_num
  · norm_num
  · exact prime_14
  · exact prime_15
  · exact prime_17

theorem prime_19 : Nat.Prime (104719073621178708975837602950775180438320278101) := by
  refine lucas _ 2 [2, 2, 5, 5, 11, 467, 203852586375664218368381551393371968928013] (by norm_num) (by norm_num) ?_ (by decide +kernel) (by decide +kernel)
  intro q hq
  simp only [List.mem_cons, List.not_mem_nil, or_false] at hq
  rcases hq with rfl | rfl | rfl | rfl | rfl | rfl | rfl
  · norm_num
  · norm_num
  · norm_num
  · norm_num
  · norm_num
  · norm_num
  · exact prime_18

theorem prime_20 : Nat.Prime (27413359092552162435694767700453926735143482401279781) := by
  refine lucas _ 2 [2, 2, 3, 5, 4363, 104719073621178708975837602950775180438320278101] (by norm_num) (by norm_num) ?_ (by decide +kernel) (by decide +kernel)
  intro q hq
  simp only [List.mem_cons, List.not_mem_nil, or_false] at hq
  rcases hq with rfl | rfl | rfl | rfl | rfl | rfl
  · norm_num
  · norm_num
  · norm_num
  · norm_num
  · norm_num
  · exact prime_19

theorem ordT_prime : Nat.Prime (ordT) := by
  rw [ordT]
  refine lucas _ 2 [2, 2, 79, 117223, 6418733, 2220636239, 27413359092552162435694767700453926735143482401279781] (by norm_num) (by norm_num) ?_ (by decide +kernel) (by decide +kernel)
  intro q hq
  simp only [List.mem_cons, List.not_mem_nil, or_false] at hq
  rcases hq with rfl | rfl | rfl | rfl | rfl | rfl | rfl
  · norm_num
  · norm_num
  · norm_num
  · norm_num
  · norm_num
  · exact prime_13
  · exact prime_20

end Psi.X25519
