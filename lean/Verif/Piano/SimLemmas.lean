import Verif.Piano.TurnLemmas
import Verif.Piano.GameLemmas

/-!
# Piano PIR: the messages of the client are those of the game
-/

namespace Psi.Piano

open Psi.Spiral (Res mapRes w64 w32)
open Game (Row State hitIdx step play hitIdx_some)

section Sim

variable {p : Params} {prf : Nat → Nat → Nat} {rnd μ : Nat → Nat → Nat} {db : List Nat}

/-- The message that a row stands for. -/
def encode (p : Params) (r : Row p.ss p.cs) : List Nat := List.ofFn fun c : Fin p.ss => c.val * p.cs + (r c).val

theorem encode_injective : Function.Injective (encode p) := by
  intro r r' h
  have h' := List.ofFn_injective h
  funext c
  have := congrFun h' c
  exact Fin.ext (by omega)

/-- The queries to a chunk that are still to come. -/
def cnt (p : Params) (xs : List Nat) (c : Nat) : Nat := (xs.filter fun x => x / p.cs = c).length

/-- The client and the game agree. -/
structure Sim (p : Params) [NeZero p.m2] (prf : Nat → Nat → Nat) (rnd : Nat → Nat → Nat) (db : List Nat) (xs : List Nat)
    (cl : Client) (s : State p.ss p.cs p.m1 p.m2) : Prop where
  online : Online p prf rnd db cl
  rows : ∀ (j : Fin p.m1) (c : Fin p.ss), elem p prf (cl.primary.getD j.val noSet) c.val = c.val * p.cs + (s.1 j c).val
  points : ∀ j : Fin p.m1, (cl.primary.getD j.val noSet).programmed = true → (cl.primary.getD j.val noSet).point ∉ xs
  room : ∀ c < p.ss, cl.rconsumed.getD c 0 + cnt p xs c ≤ p.m2
  pool : ∀ (c : Fin p.ss) (k : Fin p.m2), k.val < cnt p xs c.val →
    (∀ c' : Fin p.ss, offset p prf (w32 (p.m1 + (c.val * p.m2 + (cl.rconsumed.getD c.val 0 + k.val)))) c'.val
      = ((s.2 c k).1 c').val) ∧
    rnd c.val (cl.rconsumed.getD c.val 0 + k.val) % p.cs = (s.2 c k).2.val
  fresh : ∀ x ∈ xs, look cl.cache x = none

variable [NeZero p.m2]

omit [NeZero p.m2] in
theorem cnt_cons (x : Nat) (xs : List Nat) (c : Nat) :
    cnt p (x :: xs) c = cnt p xs c + if x / p.cs = c then 1 else 0 := by
  rw [cnt, cnt, List.filter_cons]
  split_ifs with h h' h'
  · simp
  · simp at h; exact absurd h h'
  · simp at h; exact absurd h' h
  · simp

theorem Sim.match_iff {x : Nat} {xs : List Nat} {cl : Client} {s : State p.ss p.cs p.m1 p.m2}
    (h : Sim p prf rnd db (x :: xs) cl s) {q : Fin p.ss × Fin p.cs} (hq : x / p.cs = q.1.val ∧ x % p.cs = q.2.val)
    (j : Fin p.m1) : matchSet p prf x (cl.primary.getD j.val noSet) = true ↔ s.1 j q.1 = q.2 := by
  have hr := h.rows j q.1
  have hx : x = q.1.val * p.cs + q.2.val := by
    rw [← hq.1, ← hq.2, Nat.mul_comm]
    exact (Nat.div_add_mod x p.cs).symm
  constructor
  · intro hm
    have := matchSet_elem hm
    rw [hq.1, hr] at this
    exact Fin.ext (by omega)
  · intro he
    rw [he, ← hx] at hr
    have hp := h.points j
    rw [elem] at hr
    rw [matchSet]
    split_ifs at hr with hc
    · exact absurd List.mem_cons_self (hr ▸ hp hc.1)
    · have ho : offset p prf (cl.primary.getD j.val noSet).tag q.1.val = x % p.cs := by omega
      rw [hq.1, ho, beq_self_eq_true, Bool.and_true, Bool.not_eq_true', Bool.and_eq_false_iff, beq_eq_false_iff_ne]
      rcases Bool.eq_false_or_eq_true (cl.primary.getD j.val noSet).programmed with h1 | h1
      · exact .inr fun e => hc ⟨h1, e.symm⟩
      · exact .inl h1

theorem Sim.find_eq {x : Nat} {xs : List Nat} {cl : Client} {s : State p.ss p.cs p.m1 p.m2}
    (h : Sim p prf rnd db (x :: xs) cl s) {q : Fin p.ss × Fin p.cs} (hq : x / p.cs = q.1.val ∧ x % p.cs = q.2.val) :
    findHit p prf x cl.primary = (hitIdx s.1 q.1 q.2).map Fin.val := by
  have hrange : List.range p.m1 = (List.finRange p.m1).map Fin.val := by simp
  rw [findHit, hitIdx, hrange, List.find?_map]
  congr 2
  funext j
  rw [Function.comp_apply, Bool.eq_iff_iff, h.match_iff hq j]
  simp

omit [NeZero p.m2] in
theorem maskQuery_encode {ν : Nat → Nat} {m : Row p.ss p.cs} (h : ∀ c : Fin p.ss, ν c.val % p.cs = (m c).val) :
    maskQuery p ν = encode p m := by
  rw [maskQuery, encode]
  apply List.ext_getElem
  · simp
  · intro i h1 h2
    have hi : i < p.ss := by simpa using h1
    simp only [List.getElem_map, List.getElem_range, List.getElem_ofFn]
    rw [h ⟨i, hi⟩, Nat.add_comm]

theorem Sim.tail_masked {x : Nat} {xs : List Nat} {cl : Client} {s : State p.ss p.cs p.m1 p.m2}
    (h : Sim p prf rnd db (x :: xs) cl s) (hnd : (x :: xs).Nodup) {cache : List (Nat × Entry)}
    (hc : ∀ y v, look cache y = some v → v = slice p.size db y) (hc' : ∀ y, y ≠ x → look cache y = look cl.cache y) :
    Sim p prf rnd db xs (maskNext cl x cache) s where
  online := h.online.masked x hc
  rows := h.rows
  points := fun j hp hx => h.points j hp (List.mem_cons_of_mem _ hx)
  room := by
    intro c hc
    have := h.room c hc
    rw [cnt_cons] at this
    exact le_trans (Nat.add_le_add_left (Nat.le_add_right _ _) _) this
  pool := by
    intro c k hk
    exact h.pool c k (by rw [cnt_cons]; omega)
  fresh := by
    intro y hy
    have hne : y ≠ x := fun e => (List.nodup_cons.mp hnd).1 (e ▸ hy)
    rw [maskNext]
    dsimp only
    rw [hc' y hne]
    exact h.fresh y (List.mem_cons_of_mem _ hy)

theorem step_none {s : State p.ss p.cs p.m1 p.m2} {q : Fin p.ss × Fin p.cs} {m : Row p.ss p.cs}
    (h : hitIdx s.1 q.1 q.2 = none) : step q.1 q.2 (s, m) = (s, m) := by
  unfold step
  dsimp only
  rw [h]

theorem step_some {s : State p.ss p.cs p.m1 p.m2} {q : Fin p.ss × Fin p.cs} {m : Row p.ss p.cs} {i : Fin p.m1}
    (h : hitIdx s.1 q.1 q.2 = some i) : step q.1 q.2 (s, m) =
    ((Function.update s.1 i (Function.update (s.2 q.1 0).1 q.1 q.2),
      Function.update s.2 q.1 fun j => Function.update (s.2 q.1) 0 (Function.update m q.1 ((s.2 q.1 0).1 q.1), m q.1) (j + 1)),
     Function.update (s.1 i) q.1 (s.2 q.1 0).2) := by
  unfold step
  dsimp only
  rw [h]

/-- One query of the client is one query of the game. -/
theorem sim_turn (hdb : db.length = p.cs * p.ss * p.size) {x : Nat} {xs : List Nat} {cl : Client}
    {s : State p.ss p.cs p.m1 p.m2} (h : Sim p prf rnd db (x :: xs) cl s) (hnd : (x :: xs).Nodup)
    {q : Fin p.ss × Fin p.cs} (hq : x / p.cs = q.1.val ∧ x % p.cs = q.2.val) {ν : Nat → Nat} {m : Row p.ss p.cs}
    (hm : ∀ c : Fin p.ss, ν c.val % p.cs = (m c).val) :
    ∃ cl' v, turn p prf db ν x cl = .ok (cl', encode p (step q.1 q.2 (s, m)).2, v) ∧
      Sim p prf rnd db xs cl' (step q.1 q.2 (s, m)).1 := by
  have ho := h.online
  have hxe : x = q.1.val * p.cs + q.2.val := by
    rw [← hq.1, ← hq.2, Nat.mul_comm]
    exact (Nat.div_add_mod x p.cs).symm
  have hx : x < p.cs * p.ss := by
    rw [hxe]
    exact place_lt q.1.isLt q.2.isLt
  have hc := h.fresh x List.mem_cons_self
  have hf := h.find_eq hq
  rcases hh : hitIdx s.1 q.1 q.2 with _ | i
  · rw [hh, Option.map_none] at hf
    rw [step_none hh]
    dsimp only
    rcases hms : look cl.miss x with _ | v
    · exact ⟨_, _, by rw [turn_lost hc hf hms, maskQuery_encode hm], h.tail_masked hnd ho.cache fun _ _ => rfl⟩
    · refine ⟨_, _, by rw [turn_miss ho hc hf hms, maskQuery_encode hm], h.tail_masked hnd ?_ ?_⟩
      · intro y w hw
        rw [look_cons] at hw
        split_ifs at hw with h'
        · rw [Option.some_inj] at hw
          rw [← hw, (ho.missSome x v hms).2.2, h']
        · exact ho.cache y w hw
      · intro y hy
        rw [look_cons, if_neg (Ne.symm hy)]
  · rw [hh, Option.map_some] at hf
    have hroom := h.room _ q.1.isLt
    rw [cnt_cons, if_pos hq.1] at hroom
    have hr : cl.rconsumed.getD (x / p.cs) 0 < p.m2 := by rw [hq.1]; omega
    have hcnt : 0 < cnt p (x :: xs) q.1.val := by rw [cnt_cons, if_pos hq.1]; omega
    have hval0 : ((0 : Fin p.m2) : Nat) = 0 := rfl
    obtain ⟨hb, hre⟩ := h.pool q.1 0 (by rw [hval0]; exact hcnt)
    rw [hval0, Nat.add_zero] at hre
    rw [hval0] at hb
    simp only [Nat.add_zero] at hb
    have hpl : i.val < cl.primary.length := by rw [ho.plen]; exact i.isLt
    rw [step_some hh]
    dsimp only
    refine ⟨hitNext p prf db cl x i.val, slice p.size db x, ?_, ?_⟩
    · rw [turn_hit hdb ho hx hc hf hr]
      congr 3
      rw [hitMessage, encode]
      apply List.ext_getElem
      · rw [List.length_set, elementsOf_length, List.length_ofFn]
      · intro c h1 h2
        have hcs : c < p.ss := by simpa using h2
        have hlen : c < (elementsOf p prf (cl.primary.getD i.val noSet)).length := by rw [elementsOf_length]; exact hcs
        rw [List.getElem_set, List.getElem_ofFn]
        dsimp only
        by_cases hcq : c = q.1.val
        · have : (⟨c, hcs⟩ : Fin p.ss) = q.1 := Fin.ext hcq
          rw [if_pos (hq.1.trans hcq.symm), this, Function.update_self, replacement, hq.1, hre, Nat.add_comm, hcq]
        · rw [if_neg (fun e => hcq (e.symm.trans hq.1)), Function.update_of_ne (fun e => hcq (by rw [← e]))]
          have h3 := elementsOf_get (p := p) (prf := prf) (s := cl.primary.getD i.val noSet) hcs
          rw [List.getD_eq_getElem _ _ hlen] at h3
          rw [h3]
          exact h.rows i ⟨c, hcs⟩
    · constructor
      · exact ho.answered hx i.isLt hr
      · intro j c
        rw [hitNext, getD_set _ _ _ _ _ hpl]
        dsimp only
        by_cases hj : j = i
        · rw [if_pos (by rw [hj]), hj, Function.update_self, newSet, elem]
          by_cases hcq : c = q.1
          · rw [if_pos ⟨rfl, by rw [hcq, hq.1]⟩, hcq, Function.update_self]
            exact hxe
          · rw [if_neg (fun e => hcq (Fin.ext (by rw [← e.2, hq.1]))), Function.update_of_ne hcq]
            simp only [hq.1, hb c]
        · rw [if_neg (fun e => hj (Fin.ext e)), Function.update_of_ne hj]
          exact h.rows j c
      · intro j
        rw [hitNext, getD_set _ _ _ _ _ hpl]
        split_ifs with hj
        · exact fun _ => (List.nodup_cons.mp hnd).1
        · exact fun hp hy => h.points j hp (List.mem_cons_of_mem _ hy)
      · intro c hcs
        have := h.room c hcs
        rw [cnt_cons] at this
        rw [hitNext, getD_set _ _ _ _ _ (by rw [ho.rlen]; exact chunk_lt hx)]
        by_cases hcx : c = x / p.cs
        · rw [if_pos hcx, ← hcx]
          rw [if_pos hcx.symm] at this
          omega
        · rw [if_neg hcx]
          omega
      · intro c k hk
        rw [hitNext]
        dsimp only
        rw [getD_set _ _ _ _ _ (by rw [ho.rlen]; exact chunk_lt hx)]
        by_cases hcq : c = q.1
        · rw [hcq, Function.update_self, if_pos hq.1.symm, hq.1]
          rw [hcq] at hk
          have hkk : ((k + 1 : Fin p.m2) : Nat) = k.val + 1 := by
            rw [Fin.val_add, Fin.val_one', Nat.add_mod_mod, Nat.mod_eq_of_lt (by omega)]
          have hne : (k + 1 : Fin p.m2) ≠ 0 := fun e => by
            have := congrArg Fin.val e
            rw [hkk, hval0] at this
            omega
          have h4 := h.pool q.1 (k + 1) (by rw [hkk, cnt_cons, if_pos hq.1]; omega)
          rw [hkk] at h4
          rw [Function.update_of_ne hne]
          have : cl.rconsumed.getD q.1.val 0 + 1 + k.val = cl.rconsumed.getD q.1.val 0 + (k.val + 1) := by omega
          rw [this]
          exact h4
        · rw [if_neg (fun e => hcq (Fin.ext (e.trans hq.1))), Function.update_of_ne hcq]
          exact h.pool c k (by rw [cnt_cons]; omega)
      · intro y hy
        have hne : x ≠ y := fun e => (List.nodup_cons.mp hnd).1 (e ▸ hy)
        rw [hitNext, look_cons, if_neg hne]
        exact h.fresh y (List.mem_cons_of_mem _ hy)

/-- A run of the client is a run of the game. -/
theorem sim_turns (hdb : db.length = p.cs * p.ss * p.size) : ∀ {xs : List Nat} {qs : List (Fin p.ss × Fin p.cs)} {t : Nat}
    {cl : Client} {s : State p.ss p.cs p.m1 p.m2} {ms : List (Row p.ss p.cs)}, Sim p prf rnd db xs cl s → xs.Nodup →
    List.Forall₂ (fun x q => x / p.cs = q.1.val ∧ x % p.cs = q.2.val) xs qs → ms.length = xs.length →
    (∀ i (hi : i < ms.length) (c : Fin p.ss), μ (t + i) c.val % p.cs = (ms[i] c).val) →
    ∃ outs, turns p prf db μ t xs cl = .ok outs ∧ outs.map Prod.fst = (play qs s ms).2.map (encode p)
  | [], _, _, _, _, _, _, _, .nil, _, _ => ⟨[], rfl, rfl⟩
  | x :: xs, q :: qs, t, cl, s, m :: ms, h, hnd, .cons hq hqs, hlen, hms => by
    obtain ⟨cl', v, hturn, h'⟩ := sim_turn hdb h hnd hq (ν := μ t) (m := m) (hms 0 (by simp))
    obtain ⟨outs, hrun, houts⟩ := sim_turns hdb (t := t + 1) (ms := ms) h' (List.nodup_cons.mp hnd).2 hqs (by simpa using hlen)
      (fun i hi c => by
        have := hms (i + 1) (by simpa using hi) c
        rw [Nat.add_right_comm]
        simpa [Nat.add_assoc] using this)
    refine ⟨(encode p (step q.1 q.2 (s, m)).2, v) :: outs, by rw [turns, hturn, bind_ok, hrun, bind_ok], ?_⟩
    rw [List.map_cons, houts, play]
    rfl

end Sim

end Psi.Piano
