import Verif.Rr22.IntersectProps

/-!
# RR22: the values of the sender in parts

Models the variants of `GetIntersectionSender` and `GetIntersectionReceiver` without counts
(`psi/algorithm/rr22/rr22_utils.cc:152-227, 275-306`).  They differ from those of `Verif/Rr22/Intersect.lean` in that the
values travel in several messages, and that there are no counts.  The link delivers in order.
-/

namespace Psi.Rr22
open Psi.Ecdh (Bytes)

/-- The messages with the values: `rr22_utils.cc:294-299`.  `chunk` is `kSendChunkSize` (`rr22_utils.h:28`), `n` the number
of values, `buf` the memory of the values after they were moved together. -/
def sendParts (chunk m n : Nat) (buf : Bytes) : List Bytes :=
  (List.range ((n + chunk - 1) / chunk)).map fun k => (buf.drop (k * chunk * m)).take (min chunk (n - k * chunk) * m)

/-- How receiving ends. -/
inductive Received
  /-- the buffer, and messages that were not looked at -/
  | ok (buf : Bytes) (later : List Bytes)
  /-- it waits for another message -/
  | waits
  /-- it writes behind the end of the buffer -/
  | undefined
deriving DecidableEq, Repr

/-- The loop of the receiver: `rr22_utils.cc:179-186`.  `c` is `recv_item_count`. -/
def recvParts (m n : Nat) : Nat → Bytes → List Bytes → Received
  | c, buf, [] => if n ≤ c then .ok buf [] else .waits
  | c, buf, x :: xs =>
    if n ≤ c then .ok buf (x :: xs)
    else if buf.length < c * m + x.length then .undefined
    else recvParts m n (c + x.length / m) (put buf (c * m) x) xs

/-- What the receiver finds: `rr22_utils.cc:152-227`, from the buffer on; `none` unless receiving ended well.  The result are
the positions of both sides. -/
def receiveParts (m n : Nat) (oprfs : List Nat) (chunks : List (List Nat)) (init : Bytes) (messages : List Bytes) :
    Option (List (Nat × Nat)) :=
  match recvParts m n 0 init messages with
  | .ok buf _ => (receive m n oprfs [] chunks buf []).map fun w => w.map fun x => (x.self, x.peer)
  | _ => none

/-! ### Parts of whole values -/

theorem put_length {buf : Bytes} {off : Nat} {bs : Bytes} (h : off + bs.length ≤ buf.length) :
    (put buf off bs).length = buf.length := by
  simp only [put, List.length_append, List.length_take, List.length_drop]
  omega

theorem recvParts_whole {m : Nat} (hm : 0 < m) {n : Nat} (later : List Bytes) :
    ∀ (parts : List Bytes) (c : Nat) (buf : Bytes),
    (∀ x ∈ parts, m ∣ x.length ∧ x ≠ []) → buf.length = n * m → c * m + parts.flatten.length = n * m →
    recvParts m n c buf (parts ++ later) = .ok (buf.take (c * m) ++ parts.flatten) later
  | [], c, buf, _, hb, hc => by
    have hcn : c = n := by
      simp only [List.flatten_nil, List.length_nil, Nat.add_zero] at hc
      exact Nat.eq_of_mul_eq_mul_right hm hc
    subst hcn
    have e : buf.take (c * m) ++ ([] : List Bytes).flatten = buf := by simp [← hb]
    rw [e]
    cases later <;> simp [recvParts]
  | x :: parts, c, buf, hp, hb, hc => by
    obtain ⟨⟨q, hq⟩, hne⟩ := hp x (by simp)
    have hpos : 0 < x.length := List.length_pos_iff.2 hne
    rw [List.flatten_cons, List.length_append] at hc
    have hcn : ¬ n ≤ c := by
      intro h
      have := Nat.mul_le_mul_right m h
      omega
    have hfit : c * m + x.length ≤ buf.length := by omega
    have hdiv : x.length / m = q := by rw [hq]; exact Nat.mul_div_cancel_left q hm
    have hnext : (c + q) * m = c * m + x.length := by rw [hq, Nat.add_mul, Nat.mul_comm q]
    rw [List.cons_append, recvParts, if_neg hcn, if_neg (by omega), hdiv,
      recvParts_whole hm later parts (c + q) _ (fun y hy => hp y (by simp [hy])) (by rw [put_length hfit, hb])
        (by rw [hnext]; omega), hnext]
    have e : (put buf (c * m) x).take (c * m + x.length) = buf.take (c * m) ++ x := by
      have hl : (buf.take (c * m) ++ x).length = c * m + x.length := by
        rw [List.length_append, List.length_take]; omega
      unfold put
      rw [← hl, List.take_left']
      rfl
    rw [e, List.flatten_cons, List.append_assoc]

theorem sendParts_flatten {chunk m : Nat} (hc : 0 < chunk) {n : Nat} {buf : Bytes} (hb : buf.length = n * m) :
    ∀ K, ((List.range K).map fun k => (buf.drop (k * chunk * m)).take (min chunk (n - k * chunk) * m)).flatten =
      buf.take (min (K * chunk) n * m)
  | 0 => by simp
  | K + 1 => by
    rw [List.range_succ, List.map_append, List.flatten_append, sendParts_flatten hc hb K]
    simp only [List.map_cons, List.map_nil, List.flatten_cons, List.flatten_nil, List.append_nil]
    by_cases h : K * chunk ≤ n
    · have e : min ((K + 1) * chunk) n = K * chunk + min chunk (n - K * chunk) := by
        rw [Nat.add_mul, Nat.one_mul]; omega
      rw [Nat.min_eq_left h, e, Nat.add_mul, List.take_add]
    · have e1 : min (K * chunk) n = n := by omega
      have e2 : min ((K + 1) * chunk) n = n := by rw [Nat.add_mul, Nat.one_mul]; omega
      have e3 : n - K * chunk = 0 := by omega
      rw [e1, e2, e3]
      simp

/-! ## The property -/

/-- **C133.** However the values are cut into messages of whole values, the receiver has them in its buffer as they were
sent, and takes no message more. -/
theorem C133_any_parts {m : Nat} (hm : 0 < m) {n : Nat} {parts : List Bytes}
    (hp : ∀ x ∈ parts, m ∣ x.length ∧ x ≠ []) (hn : parts.flatten.length = n * m) {init : Bytes}
    (hi : init.length = n * m) (later : List Bytes) :
    recvParts m n 0 init (parts ++ later) = .ok parts.flatten later := by
  have := recvParts_whole hm later parts 0 init hp hi (by omega)
  simpa using this

/-- **C133.** The messages of the sender are such. -/
theorem C133_sent_parts {chunk m : Nat} (hc : 0 < chunk) (hm : 0 < m) {n : Nat} {buf : Bytes} (hb : buf.length = n * m)
    {init : Bytes} (hi : init.length = n * m) (later : List Bytes) :
    recvParts m n 0 init (sendParts chunk m n buf ++ later) = .ok buf later := by
  have hdm := Nat.div_add_mod (n + chunk - 1) chunk
  have hlt := Nat.mod_lt (n + chunk - 1) hc
  rw [Nat.mul_comm] at hdm
  have e : (sendParts chunk m n buf).flatten = buf := by
    unfold sendParts
    rw [sendParts_flatten hc hb, Nat.min_eq_right (by omega), ← hb, List.take_length]
  have := C133_any_parts hm (n := n) (parts := sendParts chunk m n buf) (fun x hx => ?_) (by rw [e, hb]) hi later
  · rw [this, e]
  · simp only [sendParts, List.mem_map, List.mem_range] at hx
    obtain ⟨k, hk, rfl⟩ := hx
    have hk' : (k + 1) * chunk ≤ (n + chunk - 1) / chunk * chunk := Nat.mul_le_mul_right chunk hk
    rw [Nat.add_mul, Nat.one_mul] at hk'
    have hkn : k * chunk < n := by omega
    have hl : ((buf.drop (k * chunk * m)).take (min chunk (n - k * chunk) * m)).length = min chunk (n - k * chunk) * m := by
      rw [List.length_take, List.length_drop, hb, ← Nat.sub_mul]
      exact Nat.min_eq_left (Nat.mul_le_mul_right m (Nat.min_le_right _ _))
    refine ⟨by rw [hl]; exact Nat.dvd_mul_left _ _, ?_⟩
    rw [← List.length_pos_iff, hl]
    exact Nat.mul_pos (by omega) hm

theorem lookup_positions (m : Nat) (oprfs dups : List Nat) (buf : Bytes) (cnts : List (Nat × Nat)) (js : List Nat) :
    (lookup m oprfs [] buf [] js).map (fun x => (x.self, x.peer)) =
      (lookup m oprfs dups buf cnts js).map fun x => (x.self, x.peer) := by
  unfold lookup
  rw [List.map_filterMap, List.map_filterMap]
  congr 1
  funext j
  cases find m oprfs (ofLe ((buf.drop (j * m)).take m)) <;> rfl

/-- **C133.** From the values to the result: the receiver gets the pairs of positions of the common items, each once, for
every size of the messages, every split of the search and every order of its parts.

Missing from the full claim: a common item whose truncated value is zero, see `C24_zero_value_lost`. -/
theorem C133_intersection_partial {α : Type} {chunk m : Nat} (hc : 0 < chunk) (hm : 0 < m) (hm' : m ≤ 16) {vR vS : α → Nat}
    {xs ys : List (α × Nat)} (g : Good m vR vS xs ys) (hx : (xs.map Prod.fst).Nodup)
    (hxl : xs.length ≤ 2 ^ 32) (hyl : ys.length ≤ 2 ^ 32) (chunks : List (List Nat))
    (hcs : chunks.flatten.Perm (List.range ys.length)) {init : Bytes} (hi : init.length = ys.length * m) :
    ∃ l, receiveParts m ys.length (xs.map fun x => vR x.1) chunks init
        (sendParts chunk m ys.length (sendBuf m (ys.map fun y => vS y.1))) = some l ∧ (l.map Prod.snd).Nodup ∧
      ∀ i j, (i, j) ∈ l ↔ ∃ (hi : i < xs.length) (hj : j < ys.length), xs[i].1 = ys[j].1 := by
  have hlen : (sendBuf m (ys.map fun y => vS y.1)).length = ys.length * m := by
    rw [sendBuf_eq m hm', low_length m hm', List.length_map]
  have hr := C133_sent_parts hc hm hlen hi []
  rw [List.append_nil] at hr
  refine ⟨(lookup m (xs.map fun x => vR x.1) (xs.map Prod.snd) (sendBuf m (ys.map fun y => vS y.1))
    (cntMap (ys.map Prod.snd)) chunks.flatten).map fun x => (x.self, x.peer), ?_, ?_, ?_⟩
  · unfold receiveParts
    rw [hr]
    dsimp only
    unfold receive
    rw [if_pos (by rw [hlen, Nat.mul_div_cancel _ hm]), flatMap_lookup, Option.map_some]
    exact congrArg some (lookup_positions _ _ _ _ _ _)
  · have h := nodup_lookup (m := m) (vR := vR) (vS := vS) (xs := xs) hyl hcs
    rw [List.map_map]
    exact h
  · intro i j
    rw [List.mem_map]
    constructor
    · rintro ⟨w, hw, he⟩
      obtain ⟨h1, h2, h3, -⟩ := (mem_lookup hm' g hx hxl hyl hcs w).1 hw
      simp only [Prod.mk.injEq] at he
      obtain ⟨rfl, rfl⟩ := he
      exact ⟨h1, h2, h3⟩
    · rintro ⟨h1, h2, h3⟩
      exact ⟨⟨i, ys[j].2, j, xs[i].2⟩, (mem_lookup hm' g hx hxl hyl hcs _).2 ⟨h1, h2, h3, rfl, rfl⟩, rfl⟩

/-- **C133 (negation).** The length of a message is not looked at: one that is longer than the buffer is written behind its
end. -/
theorem C133_long_message {m n : Nat} (hn : 0 < n) {init : Bytes} (hi : init.length = n * m) {x : Bytes}
    (hx : n * m < x.length) (later : List Bytes) : recvParts m n 0 init (x :: later) = .undefined := by
  rw [recvParts, if_neg (by omega), if_pos (by omega)]

/-- **C133 (negation).** And values that are cut in two arrive as others: four values of two bytes, in messages of three and five
bytes. -/
theorem C133_cut_value :
    ∃ (parts : List Bytes) (buf : Bytes), parts.flatten.length = 4 * 2 ∧
      recvParts 2 4 0 (List.replicate 8 0) (parts ++ [[9, 9]]) = .ok buf [] ∧ buf ≠ parts.flatten :=
  ⟨[[1, 2, 3], [4, 5, 6, 7, 8]], [1, 2, 4, 5, 6, 7, 9, 9], by decide, by decide, by decide⟩

/-! ### Examples -/

example : recvParts 2 3 0 [0, 0, 0, 0, 0, 0] ([[1, 2, 3, 4], [5, 6]] ++ [[7]]) = .ok [1, 2, 3, 4, 5, 6] [[7]] :=
  C133_any_parts (by decide) (by decide) (by decide) (by decide) _

example : sendParts 2 2 3 [1, 2, 3, 4, 5, 6] = [[1, 2, 3, 4], [5, 6]] := by decide

example := C133_sent_parts (chunk := 2) (m := 2) (n := 3) (buf := [1, 2, 3, 4, 5, 6]) (by decide) (by decide) (by decide)
  (init := [0, 0, 0, 0, 0, 0]) (by decide) []

example := C133_intersection_partial (chunk := 2) (m := 2) (by decide) (by decide) (by decide) exGood (by decide) (by decide)
  (by decide) [[2], [0, 1]] (by decide) (init := List.replicate 6 0) (by decide)

example : recvParts 2 1 0 [0, 0] [[1, 2, 3]] = .undefined := C133_long_message (by decide) (by decide) (by decide) _

end Psi.Rr22
