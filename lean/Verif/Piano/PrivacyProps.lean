import Verif.Piano.SimLemmas
import Mathlib.Data.Fintype.BigOperators

/-!
# Piano PIR: what the server learns

The pseudorandom function, the replacements and the masks are taken to be uniform: a tape holds a row of offsets for each primary
set, a row and a replacement for each backup set, and a row for each mask.
-/

namespace Psi.Piano

open Psi.Spiral (Res mapRes w64 w32)
open Game (Row State play play_count play_length)

/-- The random choices of a client that makes `L` queries. -/
abbrev Tape (p : Params) (L : Nat) := State p.ss p.cs p.m1 p.m2 × (Fin L → Row p.ss p.cs)

/-- An offset of a row. -/
def offs {p : Params} (r : Row p.ss p.cs) (c : Nat) : Nat := if h : c < p.ss then (r ⟨c, h⟩).val else 0

/-- The function that stands for the pseudorandom function: tags below `m1` are those of the primary sets, the others those of
the backup sets, one group after the other (`client.cc:67-100`). -/
def prfOf {p : Params} (s : State p.ss p.cs p.m1 p.m2) (tag c : Nat) : Nat :=
  if h : tag < p.m1 then offs (s.1 ⟨tag, h⟩) c
  else if h : (tag - p.m1) / p.m2 < p.ss ∧ (tag - p.m1) % p.m2 < p.m2 then
    offs (s.2 ⟨(tag - p.m1) / p.m2, h.1⟩ ⟨(tag - p.m1) % p.m2, h.2⟩).1 c
  else 0

/-- The replacements (`client.cc:177-189`). -/
def replOf {p : Params} (s : State p.ss p.cs p.m1 p.m2) (c k : Nat) : Nat :=
  if h : c < p.ss ∧ k < p.m2 then (s.2 ⟨c, h.1⟩ ⟨k, h.2⟩).2.val else 0

/-- The masks (`client.cc:192-199`). -/
def maskOf {p : Params} {L : Nat} (ms : Fin L → Row p.ss p.cs) (t c : Nat) : Nat := if h : t < L then offs (ms ⟨t, h⟩) c else 0

/-- The messages of a run. -/
def messages : Res (List (List Nat × Entry)) → Option (List (List Nat))
  | .ok outs => some (outs.map Prod.fst)
  | _ => none

/-- What the server sees when a client with this tape asks for `xs`. -/
def seen (p : Params) (pad : Nat → List Nat) (db xs : List Nat) {L : Nat} (w : Tape p L) : Option (List (List Nat)) :=
  messages (run p (prfOf w.1) pad (replOf w.1) (maskOf w.2) db xs)

variable {p : Params} {pad : Nat → List Nat} {db xs ys : List Nat}

theorem offs_lt (r : Row p.ss p.cs) (c : Nat) : offs r c < p.cs := by
  unfold offs
  split_ifs
  · exact (r _).isLt
  · exact cs_pos p

theorem start_sim [NeZero p.m2] (htags : p.m1 + p.total ≤ 2 ^ 32)
    (s : State p.ss p.cs p.m1 p.m2) {cl : Client} (h : After p (prfOf s) (replOf s) db p.ss cl)
    (hroom : ∀ c < p.ss, cnt p xs c ≤ p.m2) : Sim p (prfOf s) (replOf s) db xs cl s := by
  have hcons : ∀ c < p.ss, cl.rconsumed.getD c 0 = 0 := by
    intro c hc
    rw [h.rcons, List.getD_eq_getElem _ _ (by simpa using hc), List.getElem_replicate]
  have hp : ∀ j : Fin p.m1, (cl.primary.getD j.val noSet).programmed = false ∧ (cl.primary.getD j.val noSet).tag = j.val := by
    intro j
    rw [h.primary, List.getD_eq_getElem _ _ (by simp [primaryAt])]
    have hj : w32 j.val = j.val := Nat.mod_eq_of_lt (by have := j.isLt; omega)
    simp [primaryAt, hj]
  constructor
  · exact h.online
  · intro j c
    rw [elem, if_neg (by rw [(hp j).1]; simp), (hp j).2, offset_eq]
    unfold prfOf offs
    rw [dif_pos j.isLt, dif_pos c.isLt]
    rw [Nat.mod_eq_of_lt (s.1 _ _).isLt]
  · intro j hj
    rw [(hp j).1] at hj
    exact absurd hj (by simp)
  · intro c hc
    rw [hcons c hc, Nat.zero_add]
    exact hroom c hc
  · intro c k _
    rw [hcons _ c.isLt, Nat.zero_add]
    have hlt : c.val * p.m2 + k.val < p.total := by
      have : (c.val + 1) * p.m2 ≤ p.ss * p.m2 := Nat.mul_le_mul_right _ c.isLt
      rw [Nat.succ_mul] at this
      rw [Params.total, Nat.mul_comm p.m2]
      have := k.isLt
      omega
    have hpos : 0 < p.m2 := lt_of_le_of_lt (Nat.zero_le _) k.isLt
    have hdiv : (c.val * p.m2 + k.val) / p.m2 = c.val := by
      rw [Nat.add_comm, Nat.add_mul_div_right _ _ hpos, Nat.div_eq_of_lt k.isLt, Nat.zero_add]
    have hmod : (c.val * p.m2 + k.val) % p.m2 = k.val := by
      rw [Nat.add_comm, Nat.add_mul_mod_self_right, Nat.mod_eq_of_lt k.isLt]
    have hw : w32 (p.m1 + (c.val * p.m2 + k.val)) = p.m1 + (c.val * p.m2 + k.val) := Nat.mod_eq_of_lt (by omega)
    constructor
    · intro c'
      rw [hw, offset_eq]
      unfold prfOf
      rw [dif_neg (by omega)]
      have e : p.m1 + (c.val * p.m2 + k.val) - p.m1 = c.val * p.m2 + k.val := by omega
      simp only [e, hdiv, hmod]
      rw [dif_pos ⟨c.isLt, k.isLt⟩]
      unfold offs
      rw [dif_pos c'.isLt, Nat.mod_eq_of_lt (Fin.isLt _)]
    · unfold replOf
      rw [dif_pos ⟨c.isLt, k.isLt⟩, Nat.mod_eq_of_lt (Fin.isLt _)]
  · intro x _
    simp [h.cache, look]

/-- The queries of the game. -/
theorem queries_exist : ∀ xs : List Nat, (∀ x ∈ xs, x < p.cs * p.ss) →
    ∃ qs : List (Fin p.ss × Fin p.cs), List.Forall₂ (fun x q => x / p.cs = q.1.val ∧ x % p.cs = q.2.val) xs qs
  | [], _ => ⟨[], .nil⟩
  | x :: xs, h => by
    obtain ⟨qs, hqs⟩ := queries_exist xs fun y hy => h y (List.mem_cons_of_mem _ hy)
    exact ⟨(⟨x / p.cs, chunk_lt (h x List.mem_cons_self)⟩, ⟨x % p.cs, Nat.mod_lt _ (cs_pos p)⟩) :: qs, .cons ⟨rfl, rfl⟩ hqs⟩

theorem seen_eq [NeZero p.m2] (hdb : db.length = p.n * p.size) (htags : p.m1 + p.total ≤ 2 ^ 32) (hxs : ∀ x ∈ xs, x < p.n)
    (hnd : xs.Nodup) (hroom : ∀ c, (xs.filter fun x => x / p.cs = c).length ≤ p.m2) :
    ∃ qs : List (Fin p.ss × Fin p.cs), qs.length = xs.length ∧
      ∀ w : Tape p xs.length, seen p pad db xs w = some ((play qs w.1 (List.ofFn w.2)).2.map (encode p)) := by
  have hal := align_length pad hdb
  obtain ⟨qs, hqs⟩ := queries_exist (p := p) xs fun x hx => lt_of_lt_of_le (hxs x hx) (n_le p)
  refine ⟨qs, hqs.length_eq.symm, fun w => ?_⟩
  obtain ⟨cl, hoff, hafter⟩ := offline_ok (p := p) (prf := prfOf w.1) (rnd := replOf w.1) hal
  obtain ⟨outs, hrun, houts⟩ := sim_turns (μ := maskOf w.2) (t := 0) (ms := List.ofFn w.2) hal
    (start_sim htags w.1 hafter fun c _ => hroom c) hnd hqs (by simp) (by
      intro i hi c
      rw [List.getElem_ofFn, Nat.zero_add]
      have hi' : i < xs.length := by simpa using hi
      unfold maskOf offs
      rw [dif_pos hi', dif_pos c.isLt, Nat.mod_eq_of_lt (Fin.isLt _)])
  rw [seen, run, hoff, bind_ok, hrun, messages, houts]

theorem count_eq [NeZero p.m2] (hdb : db.length = p.n * p.size) (htags : p.m1 + p.total ≤ 2 ^ 32) (hxs : ∀ x ∈ xs, x < p.n)
    (hnd : xs.Nodup) (hroom : ∀ c, (xs.filter fun x => x / p.cs = c).length ≤ p.m2) (rows : List (Row p.ss p.cs))
    (hrows : rows.length = xs.length) :
    (Finset.univ.filter fun w : Tape p xs.length => seen p pad db xs w = some (rows.map (encode p))).card
      = Fintype.card (State p.ss p.cs p.m1 p.m2) := by
  obtain ⟨qs, hlen, hseen⟩ := seen_eq (pad := pad) hdb htags hxs hnd hroom
  rw [← play_count qs hlen rows hrows]
  congr 1
  apply Finset.filter_congr
  intro w _
  rw [hseen w, Option.some_inj]
  exact ⟨fun h => (List.map_injective_iff.mpr encode_injective) h, fun h => by rw [h]⟩

/-- C94: distinct indices, no more of them in one chunk than there are replacements: every sequence of messages that has one index
of each chunk in every message is as likely as every other. -/
theorem messages_uniform (hm : 0 < p.m2) (hdb : db.length = p.n * p.size) (htags : p.m1 + p.total ≤ 2 ^ 32)
    (hxs : ∀ x ∈ xs, x < p.n) (hnd : xs.Nodup) (hroom : ∀ c, (xs.filter fun x => x / p.cs = c).length ≤ p.m2)
    (V : List (List Nat)) (hV : V.length = xs.length)
    (hone : ∀ v ∈ V, v.length = p.ss ∧ ∀ c < p.ss, v.getD c 0 / p.cs = c) :
    (Finset.univ.filter fun w : Tape p xs.length => seen p pad db xs w = some V).card * (p.cs ^ p.ss) ^ xs.length
      = Fintype.card (Tape p xs.length) := by
  have : NeZero p.m2 := ⟨hm.ne'⟩
  have key : ∃ rows : List (Row p.ss p.cs), V = rows.map (encode p) := by
    clear hV
    induction V with
    | nil => exact ⟨[], rfl⟩
    | cons v V ih =>
      obtain ⟨rows, hr⟩ := ih fun u hu => hone u (List.mem_cons_of_mem _ hu)
      obtain ⟨hl, hc⟩ := hone v List.mem_cons_self
      refine ⟨(fun c => ⟨v.getD c.val 0 % p.cs, Nat.mod_lt _ (cs_pos p)⟩) :: rows, ?_⟩
      rw [List.map_cons, ← hr]
      congr 1
      apply List.ext_getElem
      · simp [encode, hl]
      · intro i h1 h2
        simp only [encode, List.getElem_ofFn]
        have := hc i (by omega)
        rw [List.getD_eq_getElem _ _ h1] at this ⊢
        conv_lhs => rw [← Nat.div_add_mod v[i] p.cs, this, Nat.mul_comm]
  obtain ⟨rows, rfl⟩ := key
  rw [count_eq hdb htags hxs hnd hroom rows (by simpa using hV), Fintype.card_prod (State p.ss p.cs p.m1 p.m2)]
  have : Fintype.card (Fin xs.length → Row p.ss p.cs) = (p.cs ^ p.ss) ^ xs.length := by simp
  rw [this]

/-- C94: two sequences of queries, each of distinct indices with no more of them in one chunk than there are replacements: whatever
the server sees is as likely with one as with the other. -/
theorem queries_hidden (hm : 0 < p.m2) (hdb : db.length = p.n * p.size) (htags : p.m1 + p.total ≤ 2 ^ 32)
    (hxs : ∀ x ∈ xs, x < p.n) (hnd : xs.Nodup) (hroom : ∀ c, (xs.filter fun x => x / p.cs = c).length ≤ p.m2)
    (hys : ∀ y ∈ ys, y < p.n) (hnd' : ys.Nodup) (hroom' : ∀ c, (ys.filter fun y => y / p.cs = c).length ≤ p.m2)
    {L : Nat} (hx : xs.length = L) (hy : ys.length = L) (V : Option (List (List Nat))) :
    (Finset.univ.filter fun w : Tape p L => seen p pad db xs w = V).card
      = (Finset.univ.filter fun w : Tape p L => seen p pad db ys w = V).card := by
  have : NeZero p.m2 := ⟨hm.ne'⟩
  subst hx
  by_cases h : ∃ rows : List (Row p.ss p.cs), rows.length = xs.length ∧ V = some (rows.map (encode p))
  · obtain ⟨rows, hr, rfl⟩ := h
    have h2 := count_eq (pad := pad) hdb htags hys hnd' hroom' rows (by rw [hr, hy])
    rw [hy] at h2
    rw [count_eq hdb htags hxs hnd hroom rows hr, h2]
  · have empty : ∀ {zs : List Nat} (_ : zs.length = xs.length) (_ : ∀ z ∈ zs, z < p.n) (_ : zs.Nodup)
        (_ : ∀ c, (zs.filter fun z => z / p.cs = c).length ≤ p.m2),
        (Finset.univ.filter fun w : Tape p xs.length => seen p pad db zs w = V) = ∅ := by
      intro zs hl hz hn hro
      obtain ⟨qs, hlen, hseen⟩ := seen_eq (pad := pad) hdb htags hz hn hro
      rw [hl] at hlen hseen
      apply Finset.filter_eq_empty_iff.mpr
      intro w _ hw
      rw [hseen w] at hw
      exact h ⟨_, by rw [play_length, hlen], hw.symm⟩
    rw [empty rfl hxs hnd hroom, empty hy hys hnd' hroom']

end Psi.Piano
