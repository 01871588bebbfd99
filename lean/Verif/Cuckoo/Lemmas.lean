import Verif.Cuckoo.Model
import Verif.Cuckoo.Spec
import Mathlib.Data.List.Perm.Basic

/-! # Cuckoo hashing: lemmas -/

namespace Psi.Cuckoo
open Spec

theorem inputIdx_eq (e : Nat) : inputIdx e = e % 2 ^ 56 := by
  unfold inputIdx kEmpty
  have : (2 ^ 64 - 1) >>> 8 = 2 ^ 56 - 1 := by decide
  rw [this, Nat.and_two_pow_sub_one_eq_mod]

theorem hashIdx_eq (e : Nat) : hashIdx e = e / 2 ^ 56 := Nat.shiftRight_eq_div_pow e 56

theorem encode_eq (i h : Nat) (hi : i < 2 ^ 56) : encode i h = h * 2 ^ 56 + i := by
  unfold encode
  rw [Nat.or_comm, ← Nat.shiftLeft_add_eq_or_of_lt hi, Nat.shiftLeft_eq]

theorem encode_input (i h : Nat) (hi : i < 2 ^ 56) : encode i h % 2 ^ 56 = i := by
  rw [encode_eq i h hi, Nat.add_comm, Nat.add_mul_mod_self_right, Nat.mod_eq_of_lt hi]

theorem encode_hash (i h : Nat) (hi : i < 2 ^ 56) : encode i h / 2 ^ 56 = h := by
  rw [encode_eq i h hi, Nat.add_comm, Nat.add_mul_div_right _ _ (by decide), Nat.div_eq_of_lt hi,
    Nat.zero_add]

/-- A word that stores a known item under a valid hash function. -/
structure Valid (o : Options) (n : Nat) (e : Nat) : Prop where
  input : e % 2 ^ 56 < n
  hash : e / 2 ^ 56 < o.numHash

theorem Valid.ne {o : Options} {n e : Nat} (h : Valid o n e) (ho : o.numHash ≤ 255) :
    e ≠ 2 ^ 64 - 1 := by
  intro he
  subst he
  have := h.hash
  have h2 : (2 ^ 64 - 1) / 2 ^ 56 = 255 := by decide
  omega

theorem stored_cons (e : Nat) (l : List Nat) :
    stored (e :: l) = (if e = 2 ^ 64 - 1 then [] else [e % 2 ^ 56]) ++ stored l := by
  unfold stored
  by_cases h : e = 2 ^ 64 - 1
  · simp [h]
  · simp [h]

theorem stored_set (c : Nat) (hc : c ≠ 2 ^ 64 - 1) : ∀ (l : List Nat) (b : Nat) (e : Nat),
    l[b]? = some e →
    ((if e = 2 ^ 64 - 1 then [] else [e % 2 ^ 56]) ++ stored (l.set b c)).Perm
      (c % 2 ^ 56 :: stored l) := by
  intro l
  induction l with
  | nil => intro b e h; simp at h
  | cons x l ih =>
    intro b e h
    cases b with
    | zero =>
      simp only [List.getElem?_cons_zero, Option.some.injEq] at h
      subst h
      simp only [List.set_cons_zero, stored_cons, if_neg hc]
      simp
    | succ b =>
      simp only [List.getElem?_cons_succ] at h
      simp only [List.set_cons_succ, stored_cons]
      have := ih b e h
      refine List.Perm.trans ?_ ((this.append_left (if x = 2 ^ 64 - 1 then [] else [x % 2 ^ 56])).trans
        List.perm_middle)
      rw [← List.append_assoc, ← List.append_assoc]
      exact List.perm_append_comm.append_right _

/-- Every bin is empty or holds an item that belongs there. -/
def BinsOk (o : Options) (codes bins : List Nat) : Prop :=
  bins.length = o.numBins ∧ ∀ (b e : Nat), bins[b]? = some e → e ≠ 2 ^ 64 - 1 →
    Valid o codes.length e ∧ target o codes e = b

theorem pass_ok (o : Options) (codes : List Nat) (hh : o.numHash ≤ 255)
    (hb : 0 < o.numBins) : ∀ (cs bins : List Nat),
    BinsOk o codes bins → (∀ c ∈ cs, Valid o codes.length c) →
    BinsOk o codes (pass o codes bins cs).1 ∧
      (∀ c ∈ (pass o codes bins cs).2, Valid o codes.length c) ∧
      (stored (pass o codes bins cs).1 ++ (pass o codes bins cs).2.map (· % 2 ^ 56)).Perm
        (stored bins ++ cs.map (· % 2 ^ 56)) := by
  intro cs
  induction cs with
  | nil => intro bins hB _; exact ⟨hB, by simp [pass], by simp [pass]⟩
  | cons c cs ih =>
    intro bins hB hc
    have hvc := hc c (by simp)
    have hcne := hvc.ne hh
    have htb : target o codes c < bins.length := by rw [hB.1]; exact Nat.mod_lt _ hb
    have hget : bins[target o codes c]? = some bins[target o codes c] := List.getElem?_eq_getElem htb
    have hD : bins.getD (target o codes c) 0 = bins[target o codes c] := by
      rw [List.getD_eq_getElem?_getD, hget]; rfl
    have hB' : BinsOk o codes (bins.set (target o codes c) c) := by
      refine ⟨by rw [List.length_set]; exact hB.1, ?_⟩
      intro b e he hne
      rw [List.getElem?_set] at he
      by_cases hbt : target o codes c = b
      · rw [if_pos hbt, if_pos (hbt ▸ htb)] at he
        simp only [Option.some.injEq] at he
        subst he
        exact ⟨hvc, hbt⟩
      · rw [if_neg hbt] at he
        exact hB.2 b e he hne
    obtain ⟨i1, i2, i3⟩ := ih _ hB' (fun x hx => hc x (by simp [hx]))
    have hset := stored_set c hcne bins _ _ hget
    simp only [pass, hD]
    by_cases hev : bins[target o codes c] = kEmpty
    · have hev' : bins[target o codes c] = 2 ^ 64 - 1 := hev
      rw [if_pos hev]
      refine ⟨i1, i2, i3.trans ?_⟩
      rw [if_pos hev', List.nil_append] at hset
      refine (hset.append_right _).trans ?_
      rw [List.map_cons]
      exact List.perm_middle.symm
    · have hev' : bins[target o codes c] ≠ 2 ^ 64 - 1 := hev
      rw [if_neg hev]
      have hve := (hB.2 _ _ hget hev').1
      have hlt : bins[target o codes c] % 2 ^ 56 < 2 ^ 56 := Nat.mod_lt _ (by decide)
      have hpos : 0 < o.numHash := Nat.lt_of_le_of_lt (Nat.zero_le _) hve.hash
      refine ⟨i1, ?_, ?_⟩
      · intro x hx
        simp only [List.mem_cons] at hx
        rcases hx with hx | hx
        · subst hx
          rw [inputIdx_eq, hashIdx_eq]
          refine ⟨?_, ?_⟩
          · rw [encode_input _ _ hlt]; exact hve.input
          · rw [encode_hash _ _ hlt]; exact Nat.mod_lt _ hpos
        · exact i2 x hx
      · simp only [List.map_cons]
        rw [inputIdx_eq, encode_input _ _ hlt]
        refine List.perm_middle.trans ?_
        rw [if_neg hev'] at hset
        refine (List.Perm.cons _ i3).trans ?_
        have h1 := hset.append_right (cs.map (· % 2 ^ 56))
        simp only [List.cons_append, List.nil_append] at h1
        exact h1.trans List.perm_middle.symm

theorem loop_ok (o : Options) (codes : List Nat) (hh : o.numHash ≤ 255)
    (hb : 0 < o.numBins) : ∀ (k : Nat) (bins cs : List Nat),
    BinsOk o codes bins → (∀ c ∈ cs, Valid o codes.length c) →
    BinsOk o codes (loop o codes k bins cs).1 ∧
      (stored (loop o codes k bins cs).1 ++ (loop o codes k bins cs).2.map (· % 2 ^ 56)).Perm
        (stored bins ++ cs.map (· % 2 ^ 56)) := by
  intro k
  induction k with
  | zero => intro bins cs hB _; exact ⟨hB, List.Perm.refl _⟩
  | succ k ih =>
    intro bins cs hB hc
    cases cs with
    | nil => exact ⟨hB, List.Perm.refl _⟩
    | cons c cs =>
      obtain ⟨p1, p2, p3⟩ := pass_ok o codes hh hb (c :: cs) bins hB hc
      obtain ⟨q1, q2⟩ := ih _ _ p1 p2
      exact ⟨q1, q2.trans p3⟩

theorem putToStash_ok : ∀ (s s' : List Nat) (i : Nat), i < 2 ^ 56 → putToStash s i = some s' →
    s'.length = s.length ∧ (stored s').Perm (i :: stored s) := by
  intro s
  induction s with
  | nil => intro s' i _ h; simp [putToStash] at h
  | cons x s ih =>
    intro s' i hi h
    unfold putToStash at h
    by_cases hx : x = kEmpty
    · rw [if_pos hx, Option.some.injEq] at h
      subst h
      have hx' : x = 2 ^ 64 - 1 := hx
      have hi' : i ≠ 2 ^ 64 - 1 := by
        have : (2 : Nat) ^ 56 ≤ 2 ^ 64 - 1 := by decide
        omega
      rw [stored_cons, stored_cons, if_neg hi', if_pos hx', Nat.mod_eq_of_lt hi]
      exact ⟨by simp, List.Perm.refl _⟩
    · rw [if_neg hx, Option.map_eq_some_iff] at h
      obtain ⟨t, ht, rfl⟩ := h
      obtain ⟨h1, h2⟩ := ih t i hi ht
      refine ⟨by simp [h1], ?_⟩
      rw [stored_cons, stored_cons]
      exact (h2.append_left _).trans List.perm_middle

theorem stashAll_ok : ∀ (cs s s' : List Nat), stashAll s cs = some s' →
    s'.length = s.length ∧ (stored s').Perm (cs.map (· % 2 ^ 56) ++ stored s) := by
  intro cs
  induction cs with
  | nil => intro s s' h; simp only [stashAll, Option.some.injEq] at h; subst h; exact ⟨rfl, List.Perm.refl _⟩
  | cons c cs ih =>
    intro s s' h
    simp only [stashAll, Option.bind_eq_some_iff] at h
    obtain ⟨t, ht, h⟩ := h
    rw [inputIdx_eq] at ht
    obtain ⟨a1, a2⟩ := putToStash_ok _ _ _ (Nat.mod_lt _ (by decide)) ht
    obtain ⟨b1, b2⟩ := ih t s' h
    refine ⟨b1.trans a1, b2.trans ((a2.append_left _).trans ?_)⟩
    simp only [List.map_cons, List.cons_append]
    exact List.perm_middle

/-- The invariant between insertions. -/
structure Inv (o : Options) (t : Table) : Prop where
  size : t.hashes.length ≤ o.numInput
  bins : BinsOk o t.hashes t.bins
  stash : t.stash.length = o.numStash
  once : (stored t.bins ++ stored t.stash).Perm (List.range t.hashes.length)

theorem binsOk_append {o : Options} {codes bins : List Nat} (more : List Nat)
    (h : BinsOk o codes bins) : BinsOk o (codes ++ more) bins := by
  refine ⟨h.1, ?_⟩
  intro b e he hne
  obtain ⟨v, ht⟩ := h.2 b e he hne
  refine ⟨⟨by rw [List.length_append]; have := v.input; omega, v.hash⟩, ?_⟩
  rw [← ht]
  unfold target
  rw [inputIdx_eq]
  congr 2
  rw [List.getD_eq_getElem?_getD, List.getD_eq_getElem?_getD, List.getElem?_append_left v.input]

theorem insert_ok (o : Options) (t t' : Table) (codes : List Nat) (h0 : 0 < o.numHash)
    (hh : o.numHash ≤ 255) (hn : o.numInput ≤ 2 ^ 56) (ht : Inv o t)
    (h : insert o t codes = .ok t') : Inv o t' ∧ t'.hashes = t.hashes ++ codes := by
  unfold insert at h
  simp only at h
  split at h
  · exact absurd h (by simp)
  rename_i hsz
  split at h
  · exact absurd h (by simp)
  rename_i hnb
  have hlen : (t.hashes ++ codes).length ≤ o.numInput := by omega
  have hlen' : (t.hashes ++ codes).length ≤ 2 ^ 56 := by omega
  have hrange : ((List.range codes.length).map (t.hashes.length + ·)).map (· % 2 ^ 56) =
      (List.range codes.length).map (t.hashes.length + ·) := by
    rw [List.map_map]
    apply List.map_congr_left
    intro i hi
    have := List.mem_range.mp hi
    rw [List.length_append] at hlen'
    exact Nat.mod_eq_of_lt (show t.hashes.length + i < 2 ^ 56 by omega)
  have hvalid : ∀ c ∈ (List.range codes.length).map (t.hashes.length + ·),
      Valid o (t.hashes ++ codes).length c := by
    intro c hc
    obtain ⟨i, hi, rfl⟩ := List.mem_map.mp hc
    have := List.mem_range.mp hi
    rw [List.length_append] at hlen' ⊢
    refine ⟨?_, ?_⟩
    · show (t.hashes.length + i) % 2 ^ 56 < _
      rw [Nat.mod_eq_of_lt (by omega)]; omega
    · show (t.hashes.length + i) / 2 ^ 56 < _
      rw [Nat.div_eq_of_lt (by omega)]; exact h0
  -- with no bins nothing moves
  have hloop : BinsOk o (t.hashes ++ codes) (loop o (t.hashes ++ codes) o.maxTry t.bins
        ((List.range codes.length).map (t.hashes.length + ·))).1 ∧
      (stored (loop o (t.hashes ++ codes) o.maxTry t.bins
          ((List.range codes.length).map (t.hashes.length + ·))).1 ++
        (loop o (t.hashes ++ codes) o.maxTry t.bins
          ((List.range codes.length).map (t.hashes.length + ·))).2.map (· % 2 ^ 56)).Perm
        (stored t.bins ++ (List.range codes.length).map (t.hashes.length + ·)) := by
    by_cases hb : 0 < o.numBins
    · have := loop_ok o (t.hashes ++ codes) hh hb o.maxTry t.bins _ (binsOk_append codes ht.bins)
        hvalid
      rw [hrange] at this
      exact this
    · have hb0 : o.numBins = 0 := by omega
      by_cases hcodes : codes = []
      · subst hcodes
        simp only [List.length_nil, List.range_zero, List.map_nil]
        have : loop o (t.hashes ++ []) o.maxTry t.bins [] = (t.bins, []) := by
          cases o.maxTry <;> rfl
        rw [this]
        exact ⟨binsOk_append [] ht.bins, List.Perm.refl _⟩
      · have hm : o.maxTry = 0 := by
          by_contra hm
          exact hnb ⟨hb0, hcodes, hm⟩
        rw [hm]
        simp only [loop]
        rw [hrange]
        exact ⟨binsOk_append codes ht.bins, List.Perm.refl _⟩
  split at h
  · exact absurd h (by simp)
  rename_i stash hst
  simp only [Except.ok.injEq] at h
  subst h
  obtain ⟨s1, s2⟩ := stashAll_ok _ _ _ hst
  refine ⟨⟨hlen, hloop.1, s1.trans ht.stash, ?_⟩, rfl⟩
  refine (s2.append_left _).trans ?_
  rw [← List.append_assoc]
  refine (hloop.2.append_right _).trans ?_
  rw [List.append_assoc]
  refine (List.perm_append_comm.append_left _).trans ?_
  rw [← List.append_assoc]
  refine (ht.once.append_right _).trans ?_
  rw [List.length_append, List.range_add]

theorem new_ok (o : Options) (t : Table) (h : new o = .ok t) : Inv o t ∧ t.hashes = [] := by
  unfold new at h
  split at h
  · simp only [Except.ok.injEq] at h
    subst h
    have hs : ∀ n, stored (List.replicate n kEmpty) = [] := by
      intro n
      simp [stored, kEmpty]
    refine ⟨⟨by simp, ⟨by simp, ?_⟩, by simp, ?_⟩, rfl⟩
    · intro b e he hne
      have := List.mem_of_getElem? he
      rw [List.mem_replicate] at this
      exact absurd this.2 hne
    · simp [hs]
  · exact absurd h (by simp)

theorem new_numHash (o : Options) (t : Table) (h : new o = .ok t) (h64 : o.numHash < 2 ^ 63)
    (h0 : 0 < o.numHash) : o.numHash ≤ 5 := by
  unfold new at h
  split at h
  · rename_i hc
    omega
  · exact absurd h (by simp)

theorem inserts_ok (o : Options) (h0 : 0 < o.numHash) (hh : o.numHash ≤ 255) (hn : o.numInput ≤ 2 ^ 56) :
    ∀ (batches : List (List Nat)) (t t' : Table), Inv o t → batches.foldlM (insert o) t = .ok t' →
      Inv o t' ∧ t'.hashes = t.hashes ++ batches.flatten := by
  intro batches
  induction batches with
  | nil =>
    intro t t' ht h
    simp only [List.foldlM_nil, pure, Except.pure, Except.ok.injEq] at h
    subst h
    exact ⟨ht, by simp⟩
  | cons b bs ih =>
    intro t t' ht h
    rw [List.foldlM_cons] at h
    cases hi : insert o t b with
    | error e => rw [hi] at h; exact absurd h (by simp [bind, Except.bind])
    | ok u =>
      rw [hi] at h
      obtain ⟨hu, he⟩ := insert_ok o t u b h0 hh hn ht hi
      obtain ⟨h1, h2⟩ := ih u t' hu h
      exact ⟨h1, by rw [h2, he]; simp⟩

end Psi.Cuckoo
