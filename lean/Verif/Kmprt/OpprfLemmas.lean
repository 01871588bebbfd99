import Verif.Kmprt.HashLemmas

/-!
# Lemmas on the OPPRF of KMPRT17
-/

namespace Psi.Kmprt

open Psi.Spiral (Res mapRes)

theorem mapRes_inv {α β : Type} {f : α → Res β} : ∀ {l : List α} {r : List β}, mapRes f l = .ok r →
    r.length = l.length ∧ ∀ i (h1 : i < l.length) (h2 : i < r.length), f l[i] = .ok r[i]
  | [], r, h => by
    injection h with h
    subst h
    exact ⟨rfl, fun i h1 => absurd h1 (by simp)⟩
  | a :: l, r, h => by
    unfold mapRes at h
    cases ha : f a with
    | throws => rw [ha] at h; cases h
    | undefined => rw [ha] at h; cases h
    | ok b =>
      rw [ha] at h
      simp only [Res.bind] at h
      cases hl : mapRes f l with
      | throws => rw [hl] at h; cases h
      | undefined => rw [hl] at h; cases h
      | ok bs =>
        rw [hl] at h
        injection h with h
        subst h
        obtain ⟨i1, i2⟩ := mapRes_inv hl
        refine ⟨by simp [i1], fun i h1 h2 => ?_⟩
        cases i with
        | zero => exact ha
        | succ i => exact i2 i (by simpa using h1) (by simpa using h2)

theorem xor_zero_iff {a b : Nat} : a ^^^ b = 0 ↔ a = b := by
  constructor
  · intro h
    have : a ^^^ b ^^^ b = b := by rw [h, Nat.zero_xor]
    rwa [Nat.xor_assoc, Nat.xor_self, Nat.xor_zero] at this
  · rintro rfl
    exact Nat.xor_self _

theorem batch_end {a : Nat} (h : a % BATCH + 1 = BATCH) : (a + 1) / BATCH * BATCH = a + 1 ∧ (a + 1) % BATCH = 0 := by
  unfold BATCH at *
  omega

theorem batch_mid {a : Nat} (h : a % BATCH + 1 ≠ BATCH) : (a + 1) / BATCH = a / BATCH ∧ (a + 1) % BATCH = a % BATCH + 1 := by
  unfold BATCH at *
  omega

/-! ### The sender's tables -/

theorem tableFor_some {s : Session} {size ot nonce : Nat} (hs : 0 < size) : ∀ (bin : List (Nat × Nat)) (table t : List Nat),
    table.length = size → tableFor s size ot nonce bin table = some t →
    t.length = size ∧ (∀ i, table.getD i 0 ≠ 0 → t.getD i 0 = table.getD i 0) ∧
      ∀ p ∈ bin, s.prf ot p.1 ≠ p.2 → t.getD (s.ro (s.prf ot p.1) nonce % size) 0 = s.prf ot p.1 ^^^ p.2
  | [], table, t, hl, h => by
    injection h with h
    subst h
    exact ⟨hl, fun _ _ => rfl, fun p hp => absurd hp (by simp)⟩
  | p :: bin, table, t, hl, h => by
    unfold tableFor at h
    simp only at h
    split_ifs at h with h0
    have hlt : s.ro (s.prf ot p.1) nonce % size < table.length := by rw [hl]; exact Nat.mod_lt _ hs
    obtain ⟨i1, i2, i3⟩ := tableFor_some hs bin _ t (by rw [List.length_set]; exact hl) h
    refine ⟨i1, fun i hi => ?_, fun q hq hne => ?_⟩
    · have hii : s.ro (s.prf ot p.1) nonce % size ≠ i := by
        intro he
        rw [← he] at hi
        exact h0 hi
      have := i2 i
      rw [getD_set, if_neg (by tauto)] at this
      exact this hi
    · rcases List.mem_cons.1 hq with rfl | hq
      · have := i2 (s.ro (s.prf ot q.1) nonce % size)
        rw [getD_set, if_pos ⟨rfl, hlt⟩] at this
        refine this ?_
        rw [Ne, xor_zero_iff]
        exact hne
      · exact i3 q hq hne

theorem searchNonce_some {s : Session} {size ot : Nat} {bin : List (Nat × Nat)} {r : Nat × List Nat} : ∀ (n t : Nat),
    searchNonce s size ot bin n t = some r → tableFor s size ot r.1 bin (List.replicate size 0) = some r.2
  | 0, t, h => by cases h
  | n + 1, t, h => by
    unfold searchNonce at h
    split at h
    · rename_i table ht
      injection h with h
      subst h
      exact ht
    · exact searchNonce_some n (t + 1) h

theorem fillTable_getD {s : Session} {ot : Nat} {table : List Nat} {i : Nat} (h : table.getD i 0 ≠ 0) :
    (fillTable s ot table).getD i 0 = table.getD i 0 := by
  have hi : i < table.length := by
    by_contra hc
    rw [List.getD_eq_default _ _ (by omega)] at h
    exact h rfl
  rw [List.getD_eq_getElem _ _ (by unfold fillTable; simpa using hi)]
  unfold fillTable
  rw [List.getElem_map, List.getElem_range, if_neg h]

/-- What the receiver finds in the table of a bin for a programmed element. -/
theorem sendBin_programmed {s : Session} {c ot : Nat} {bin : List (Nat × Nat)} {r : Nat × List Nat}
    (ho : ∀ l, (s.order l).Perm l) (h : sendBin s c ot bin = .ok r) {p : Nat × Nat} (hp : p ∈ bin) (hne : s.prf ot p.1 ≠ p.2) :
    s.prf ot p.1 ^^^ r.2.getD (s.ro (s.prf ot p.1) r.1 % tableSize c) 0 = p.2 := by
  unfold sendBin at h
  split at h
  · cases h
  · rename_i nonce table hn
    injection h with h
    subst h
    have ht := searchNonce_some _ _ hn
    have hs : 0 < tableSize c := by unfold tableSize; split_ifs <;> omega
    have h3 := (tableFor_some hs _ _ _ (List.length_replicate ..) ht).2.2 p ((ho bin).mem_iff.2 hp) hne
    have hx : s.prf ot p.1 ^^^ p.2 ≠ 0 := by
      rw [Ne, xor_zero_iff]
      exact hne
    simp only at h3 ⊢
    rw [fillTable_getD (by rw [h3]; exact hx), h3, ← Nat.xor_assoc, Nat.xor_self, Nat.zero_xor]

/-! ### The receiver's loop -/

theorem flush_ok {s : Session} {size : Nat} {buf : List Nat} : ∀ (is : List Nat) (msgs : List (Nat × List Nat)) (evals : List Nat),
    is.length ≤ msgs.length → flush s size buf is msgs evals =
      .ok (evals ++ (is.zip msgs).map fun p => buf.getD p.1 0 ^^^ p.2.2.getD (s.ro (buf.getD p.1 0) p.2.1 % size) 0,
        msgs.drop is.length)
  | [], msgs, evals, _ => by simp [flush]
  | i :: is, [], evals, h => by simp at h
  | i :: is, (nonce, table) :: msgs, evals, h => by
    unfold flush
    simp only
    rw [flush_ok is msgs _ (by simpa using h)]
    simp

/-- The element in bin `addr` of table `c`, and its OPRF value. -/
def binElem (s : Session) (t : Cuckoo) (c addr : Nat) : Nat :=
  if (t.bins c).getD addr 0 = 0 then s.dummy (s.begin c + addr) else (t.bins c).getD addr 0

def binEval (s : Session) (t : Cuckoo) (c addr : Nat) : Nat := s.prf (s.begin c + addr) (binElem s t c addr)

/-- The value of bin `addr` given its message. -/
def binOut (s : Session) (t : Cuckoo) (c addr : Nat) (msg : Nat × List Nat) : Nat :=
  binEval s t c addr ^^^ msg.2.getD (s.ro (binEval s t c addr) msg.1 % tableSize c) 0

/-- The correction that the sender waits for at bin `addr`. -/
def corrAt (s : Session) (c addr : Nat) : Option Nat :=
  if addr % BATCH = 0 then some (if s.begin c + addr + BATCH ≥ s.begin c + s.m c then s.m c - addr else BATCH) else none

structure Inv (s : Session) (t : Cuckoo) (c : Nat) (M : List (Nat × List Nat)) (E0 C0 : List Nat) (a : Nat) (st : RecvState) : Prop where
  b : st.b = a % BATCH
  len : st.buf.length = BATCH
  buf : ∀ i < a % BATCH, st.buf.getD i 0 = binEval s t c (a / BATCH * BATCH + i)
  evals : st.evals = E0 ++ (List.range (a / BATCH * BATCH)).map fun i => binOut s t c i (M.getD i (0, []))
  msgs : st.msgs = M.drop (a / BATCH * BATCH)
  corr : st.corrections = C0 ++ (List.range (a / BATCH * BATCH)).filterMap (corrAt s c)

theorem range_filterMap_corr {s : Session} {c d k : Nat} (hd : d % BATCH = 0) (hk : 0 < k) (hk' : k ≤ BATCH)
    (hm : d + k ≤ s.m c) (hkm : k = BATCH ∨ d + k = s.m c) :
    (List.range (d + k)).filterMap (corrAt s c) = (List.range d).filterMap (corrAt s c) ++ [k] := by
  rw [List.range_add, List.filterMap_append]
  congr 1
  obtain ⟨j, rfl⟩ : ∃ j, k = j + 1 := ⟨k - 1, by omega⟩
  rw [List.range_succ_eq_map, List.map_cons, List.filterMap_cons]
  have h0 : corrAt s c (d + 0) = some (j + 1) := by
    unfold corrAt
    rw [Nat.add_zero, if_pos hd]
    unfold BATCH at *
    split_ifs <;> congr 1 <;> omega
  rw [h0]
  simp only [List.cons.injEq, true_and, List.filterMap_eq_nil_iff]
  intro x hx
  simp only [List.map_map, List.mem_map, List.mem_range, Function.comp_apply] at hx
  obtain ⟨i, hi, rfl⟩ := hx
  unfold corrAt
  rw [if_neg]
  unfold BATCH at *
  omega

theorem flush_evals {s : Session} {t : Cuckoo} {c : Nat} {M : List (Nat × List Nat)} {buf : List Nat} {d k : Nat} (hM : d + k ≤ M.length)
    (hbuf : ∀ i < k, buf.getD i 0 = binEval s t c (d + i)) :
    (((List.range k).zip (M.drop d)).map fun p => buf.getD p.1 0 ^^^ p.2.2.getD (s.ro (buf.getD p.1 0) p.2.1 % tableSize c) 0) =
      ((List.range k).map (d + ·)).map fun i => binOut s t c i (M.getD i (0, [])) := by
  apply List.ext_getElem
  · simp; omega
  · intro i h1 h2
    have hi : i < k := by simp at h2; exact h2
    simp only [List.getElem_map, List.getElem_zip, List.getElem_range, List.getElem_drop]
    rw [hbuf i hi, List.getD_eq_getElem M _ (by omega : d + i < M.length)]
    rfl

theorem stage_loop {s : Session} {t : Cuckoo} {c : Nat} {M : List (Nat × List Nat)} {E0 C0 : List Nat} (hM : s.m c ≤ M.length) :
    ∀ (n a : Nat) (st : RecvState), a + n = s.m c → 0 < n → Inv s t c M E0 C0 a st →
    ∃ buf, buf.length = BATCH ∧ recvStage s t c (List.range' a n) st =
      .ok ⟨buf, 0, E0 ++ (List.range (s.m c)).map (fun i => binOut s t c i (M.getD i (0, []))), M.drop (s.m c),
        C0 ++ recvCorrections s c⟩
  | 0, a, st, _, h0, _ => absurd h0 (by omega)
  | n + 1, a, st, han, _, I => by
    have hb : a % BATCH < BATCH := Nat.mod_lt _ (by decide)
    have hda : a / BATCH * BATCH + a % BATCH = a := by rw [Nat.mul_comm]; exact Nat.div_add_mod a BATCH
    rw [List.range'_succ]
    unfold recvStage recvBin
    have e1 : (if (t.bins c).getD a 0 = 0 then s.dummy (s.begin c + a) else (t.bins c).getD a 0) = binElem s t c a := rfl
    have hbuf : ∀ i < a % BATCH + 1, (st.buf.set st.b (binEval s t c a)).getD i 0 = binEval s t c (a / BATCH * BATCH + i) := by
      intro i hi
      rw [getD_set, I.b]
      by_cases he : a % BATCH = i
      · rw [if_pos ⟨he, by rw [I.len]; exact hb⟩, ← he, hda]
      · rw [if_neg (by tauto)]
        exact I.buf i (by omega)
    have hbl : (st.buf.set st.b (binEval s t c a)).length = BATCH := by rw [List.length_set]; exact I.len
    simp only [e1]
    rw [if_neg (by rw [I.len, I.b]; omega)]
    have e2 : s.prf (s.begin c + a) (binElem s t c a) = binEval s t c a := rfl
    simp only [e2]
    by_cases hf : a % BATCH + 1 = BATCH ∨ s.begin c + a + 1 = s.begin c + s.m c
    · rw [if_pos hf, I.msgs, flush_ok _ _ _ (by simp; omega)]
      have hfe := flush_evals (s := s) (t := t) (c := c) (M := M) (d := a / BATCH * BATCH) (k := a % BATCH + 1) (by omega) hbuf
      have ha1 : a / BATCH * BATCH + (a % BATCH + 1) = a + 1 := by omega
      rw [hfe]
      simp only [Res.bind]
      have hE : st.evals ++ ((List.range (a % BATCH + 1)).map (a / BATCH * BATCH + ·)).map (fun i => binOut s t c i (M.getD i (0, []))) =
          E0 ++ (List.range (a + 1)).map fun i => binOut s t c i (M.getD i (0, [])) := by
        rw [I.evals, List.append_assoc, ← List.map_append, ← List.range_add, ha1]
      have hC : st.corrections ++ [a % BATCH + 1] = C0 ++ (List.range (a + 1)).filterMap (corrAt s c) := by
        rw [I.corr, List.append_assoc, ← range_filterMap_corr (Nat.mul_mod_left ..) (by omega) (by omega) (by omega) (by omega), ha1]
      have hD : (M.drop (a / BATCH * BATCH)).drop (List.range (a % BATCH + 1)).length = M.drop (a + 1) := by
        rw [List.drop_drop, List.length_range, ha1]
      rw [hE, hC, hD]
      by_cases hn : n = 0
      · subst hn
        refine ⟨_, hbl, ?_⟩
        have : a + 1 = s.m c := by omega
        rw [this]
        rfl
      · obtain ⟨hd', hm'⟩ := batch_end (a := a) (by omega)
        refine stage_loop hM n (a + 1) _ (by omega) (by omega) ⟨by rw [hm'], hbl, ?_, by rw [hd'], by rw [hd'], by rw [hd']⟩
        intro i hi
        rw [hm'] at hi
        omega
    · rw [if_neg hf]
      simp only [Res.bind]
      obtain ⟨hd', hm'⟩ := batch_mid (a := a) (by omega)
      refine stage_loop hM n (a + 1) _ (by omega) (by omega) ⟨by rw [hm', I.b], hbl, ?_, by rw [hd', I.evals], by rw [hd', I.msgs],
        by rw [hd', I.corr]⟩
      intro i hi
      rw [hm'] at hi
      rw [hd']
      exact hbuf i hi

/-- A stage of the receiver. -/
theorem recvStage_ok {s : Session} {t : Cuckoo} {c : Nat} {st : RecvState} (hm : 0 < s.m c) (hM : s.m c ≤ st.msgs.length)
    (hb : st.b = 0) (hl : st.buf.length = BATCH) :
    ∃ buf, buf.length = BATCH ∧ recvStage s t c (List.range (s.m c)) st =
      .ok ⟨buf, 0, st.evals ++ (List.range (s.m c)).map (fun i => binOut s t c i (st.msgs.getD i (0, []))), st.msgs.drop (s.m c),
        st.corrections ++ recvCorrections s c⟩ := by
  have I : Inv s t c st.msgs st.evals st.corrections 0 st := by
    refine ⟨by rw [hb]; rfl, hl, fun i hi => ?_, ?_, ?_, ?_⟩
    · simp at hi
    all_goals simp
  obtain ⟨buf, h1, h2⟩ := stage_loop hM (s.m c) 0 st (by omega) hm I
  rw [← List.range_eq_range'] at h2
  exact ⟨buf, h1, h2⟩

end Psi.Kmprt
