import Verif.SimplePir.WireModel
import Verif.SimplePir.Props
import Verif.Pps.WireLemmas

/-!
# C127: SimplePIR over a link, and several queries
-/

namespace Psi.SimplePir

open Psi.Spiral (Res mapRes w64)
open Psi.Pps (leBytes ofLeBytes readWords)

/-! ### Messages -/

/-- **C127.**  What is received is the vector that was sent, whatever follows it in the message. -/
theorem C127_vector_passes (mem : Nat) (v rest : List Nat) (hv : ∀ x ∈ v, x < 2 ^ 64) (hm : v.length ≤ mem)
    (h64 : v.length < 2 ^ 64) : vectorOfBytes mem (vectorBytes v ++ rest) = .ok v := by
  have e : (2 : Nat) ^ 64 = 256 ^ 8 := by norm_num
  unfold vectorOfBytes vectorBytes
  rw [List.append_assoc, Psi.Pps.take_le, Psi.Pps.drop_le, Psi.Pps.ofLe_leBytes 8 _ (by omega), if_neg, if_neg (by omega),
    Psi.Pps.readWords_ok 8 v rest fun x hx => e ▸ hv x hx]
  · rfl
  · rw [List.length_append, Psi.Pps.leBytes_length]; omega

/-- **C127.**  What is received is the seed that was sent. -/
theorem C127_seed_passes (v : Nat) (hv : v < 2 ^ 128) : seedOfBytes (seedBytes v) = .ok v := by
  have e : (2 : Nat) ^ 128 = 256 ^ 16 := by norm_num
  unfold seedOfBytes seedBytes
  rw [if_neg (by rw [Psi.Pps.leBytes_length]; omega), List.take_of_length_le (by rw [Psi.Pps.leBytes_length]),
    Psi.Pps.ofLe_leBytes 16 v (by omega)]

theorem readWords_short : ∀ (n : Nat) (b : List Nat), b.length < 8 * n → readWords 8 n b = .undefined
  | 0, b, h => by omega
  | n + 1, b, h => by
    rw [readWords]
    by_cases h8 : b.length < 8
    · rw [if_pos h8]
    · rw [if_neg h8, readWords_short n (b.drop 8) (by rw [List.length_drop]; omega)]
      rfl

/-- **C127.**  A message whose head announces more words than it carries is not refused: the receiver reads behind its
end. -/
theorem C127_head_not_checked (mem n : Nat) (rest : List Nat) (hn : n < 2 ^ 64) (hm : n ≤ mem)
    (hs : rest.length < 8 * n) : vectorOfBytes mem (leBytes 8 n ++ rest) = .undefined := by
  have e : (2 : Nat) ^ 64 = 256 ^ 8 := by norm_num
  unfold vectorOfBytes
  rw [Psi.Pps.take_le, Psi.Pps.drop_le, Psi.Pps.ofLe_leBytes 8 _ (by omega), if_neg, if_neg (by omega),
    readWords_short n rest hs]
  · rfl
  · rw [List.length_append, Psi.Pps.leBytes_length]; omega

/-- **C127.**  A message that is shorter than a head or a seed makes the receiver read behind its end, too. -/
theorem C127_short_message (mem : Nat) (b : List Nat) :
    (b.length < 8 → vectorOfBytes mem b = .undefined) ∧ (b.length < 16 → seedOfBytes b = .undefined) :=
  ⟨fun h => by rw [vectorOfBytes, if_pos h], fun h => by rw [seedOfBytes, if_pos h]⟩

/-! ### Vectors of the wrong length -/

theorem mapRes_first {α β : Type} {f : α → Res β} {a : α} {l : List α} (h : f a = .throws) :
    mapRes f (a :: l) = .throws := by
  rw [mapRes, h]
  rfl

/-- **C127.**  A query of the wrong length is refused by the server; a hint that is too short is not refused by the
client. -/
theorem C127_wrong_length (P : Par) (hacc : P.accepted) :
    (∀ (V : Server) (qu : List Nat), V.db.length = P.rows → (∀ r ∈ V.db, r.length = P.rows) → qu.length ≠ P.rows →
      V.answer P qu = .throws) ∧
    ∀ (gen : Nat → Nat → Nat) (c : Client) (seed : Nat) (hint : List Nat), hint.length < P.rows * P.dim →
      c.setup P gen seed hint = .undefined := by
  have hrows : 0 < P.rows := Nat.pos_of_ne_zero fun h0 => by
    have h1 := hacc.2.1
    have h2 := hacc.1
    rw [h0] at h1
    omega
  refine ⟨fun V qu hl hr hq => ?_, fun gen c seed hint hh => ?_⟩
  · obtain ⟨n, hn⟩ : ∃ n, P.rows = n + 1 := ⟨P.rows - 1, by omega⟩
    obtain ⟨r, db, hdb⟩ : ∃ r db, V.db = r :: db := List.exists_cons_of_ne_nil (by
      intro h
      rw [h] at hl
      simp at hl
      omega)
    unfold Server.answer answer
    rw [if_neg (by rw [hdb]; simp)]
    have h1 : (List.range P.rows) = 0 :: (List.range n).map (· + 1) := by
      rw [hn, List.range_succ_eq_map]
    rw [h1]
    refine mapRes_first ?_
    rw [innerProduct, if_pos]
    rw [hdb]
    simp only [List.getD_cons_zero]
    rw [hr r (by rw [hdb]; simp)]
    exact Ne.symm hq
  · unfold Client.setup hintMatrix
    rw [if_pos hh]
    rfl

/-! ### Runs -/

theorem mapRes_mem {α β : Type} {f : α → Res β} : ∀ {l : List α} {ys : List β}, mapRes f l = .ok ys →
    ys.length = l.length ∧ ∀ y ∈ ys, ∃ a ∈ l, f a = .ok y
  | [], ys, h => by cases h; simp
  | a :: l, ys, h => by
    rw [mapRes] at h
    rcases hb : f a with b | _ | _ <;> rw [hb] at h
    · rcases hbs : mapRes f l with bs | _ | _ <;> rw [hbs] at h
      · cases h
        obtain ⟨h1, h2⟩ := mapRes_mem hbs
        refine ⟨by simp [h1], fun y hy => ?_⟩
        rcases List.mem_cons.1 hy with rfl | hy
        · exact ⟨a, by simp, hb⟩
        · obtain ⟨x, hx, hx'⟩ := h2 y hy
          exact ⟨x, by simp [hx], hx'⟩
      · cases h
      · cases h
    · cases h
    · cases h

theorem inner_lt {row col : List Nat} {q v : Nat} (h : innerProduct row col q = .ok v) : v < q := by
  unfold innerProduct at h
  split at h
  · cases h
  · split at h
    · cases h
    · next hq => cases h; exact Nat.mod_lt _ (Nat.pos_of_ne_zero hq)

theorem bind_ok' {α β : Type} {x : Res α} {f : α → Res β} {b : β} (h : x.bind f = .ok b) : ∃ a, x = .ok a ∧ f a = .ok b := by
  cases x with
  | ok a => exact ⟨a, rfl, h⟩
  | throws => cases h
  | undefined => cases h

/-- The client has the matrix of the seed and the hint of the database. -/
structure Ready (P : Par) (gen : Nat → Nat → Nat) (seed : Nat) (db : List (List Nat)) (c : Client) : Prop where
  A : c.A = clientMatrix P (gen seed)
  hint : ∃ h, getHint P db (serverMatrix P (gen seed)) = .ok h ∧ hintMatrix P h = .ok c.hint

theorem connect_ok {P : Par} {mem seed v : Nat} {gen : Nat → Nat → Nat} {db : List (List Nat)} {s : List Nat}
    {e : List Int} {idx : Nat} (V0 : Server) (c0 : Client) (hmem : P.rows * P.dim ≤ mem) (hm64 : mem < 2 ^ 64)
    (hq : P.q ≤ 2 ^ 64) (hseed : seed < 2 ^ 128) (h : retrieve P (gen seed) db s e idx = .ok v) :
    ∃ V c, V0.setDatabase P db = .ok V ∧ connect mem P gen (V.generate P gen seed) c0 = .ok c ∧
      V.db = db ∧ Ready P gen seed db c := by
  unfold retrieve at h
  split at h
  · cases h
  · next hacc =>
    rw [not_not] at hacc
    obtain ⟨db', h1, h⟩ := bind_ok' h
    obtain ⟨hint, h2, h⟩ := bind_ok' h
    obtain ⟨H, h3, h⟩ := bind_ok' h
    obtain rfl : db = db' := by
      unfold setDatabase at h1
      split at h1
      · cases h1
      · split at h1
        · cases h1
        · split at h1
          · cases h1
          · cases h1; rfl
    have hne : db ≠ [] := by rintro rfl; simp [setDatabase] at h1
    have hA : serverMatrix P (gen seed) ≠ [] := by
      intro h0
      have : (serverMatrix P (gen seed)).length = P.dim := by simp [serverMatrix]
      rw [h0] at this
      have := hacc.2.2.1
      simp at *
      omega
    obtain ⟨hl, hw⟩ := mapRes_mem h2
    have hpass : passVector mem hint = .ok hint := by
      have := C127_vector_passes mem hint [] (fun x hx => by
        obtain ⟨i, -, hi⟩ := hw x hx
        exact lt_of_lt_of_le (inner_lt hi) hq) (by rw [hl, List.length_range]; exact hmem)
        (by rw [hl, List.length_range]; omega)
      rwa [List.append_nil] at this
    refine ⟨{ V0 with db := db }, ⟨clientMatrix P (gen seed), H, c0.s, c0.row⟩, ?_, ?_, rfl, rfl, hint, h2, h3⟩
    · unfold Server.setDatabase
      rw [h1]
      rfl
    · unfold connect Server.hint Server.generate
      rw [if_neg (by simp [hne, hA])]
      show (getHint P db (serverMatrix P (gen seed))).bind _ = _
      rw [h2]
      simp only [Res.bind]
      rw [show passSeed seed = .ok seed from C127_seed_passes seed hseed]
      simp only
      rw [hpass]
      simp only [Client.setup, h3, Res.bind]

theorem ask_ok {P : Par} {mem seed v : Nat} {gen : Nat → Nat → Nat} {V : Server} {c : Client} {s : List Nat}
    {e : List Int} {idx : Nat} (hmem : P.rows ≤ mem) (hm64 : mem < 2 ^ 64) (hq : P.q ≤ 2 ^ 64)
    (hc : Ready P gen seed V.db c) (h : retrieve P (gen seed) V.db s e idx = .ok v) :
    ∃ c', ask mem P V c s e idx = .ok (c', v) ∧ Ready P gen seed V.db c' := by
  unfold retrieve at h
  split at h
  · cases h
  · next hacc =>
    rw [not_not] at hacc
    obtain ⟨db', h1, h⟩ := bind_ok' h
    obtain ⟨hint, h2, h⟩ := bind_ok' h
    obtain ⟨H, h3, h⟩ := bind_ok' h
    obtain ⟨qu, h4, h⟩ := bind_ok' h
    obtain ⟨ans, h5, hv⟩ := bind_ok' h
    obtain rfl : V.db = db' := by
      unfold setDatabase at h1
      split at h1
      · cases h1
      · split at h1
        · cases h1
        · split at h1
          · cases h1
          · cases h1; rfl
    have hne : V.db ≠ [] := by intro h0; rw [h0] at h1; simp [setDatabase] at h1
    obtain ⟨hint', g1, g2⟩ := hc.hint
    obtain rfl : hint = hint' := by rw [h2] at g1; cases g1; rfl
    have hH : c.hint = H := by rw [h3] at g2; cases g2; rfl
    have hrows : 0 < P.rows := Nat.pos_of_ne_zero fun h0 => by
      have h1 := hacc.2.1
      have h2 := hacc.1
      rw [h0] at h1
      omega
    have hq4 := h4
    unfold query at hq4
    split at hq4
    · cases hq4
    · next hi =>
      split at hq4
      · cases hq4
      · next hq1 =>
        obtain ⟨hl, hw⟩ := mapRes_mem hq4
        have hquw : ∀ x ∈ qu, x < 2 ^ 64 := by
          intro x hx
          obtain ⟨i, -, hi⟩ := hw x hx
          obtain ⟨y, -, hy⟩ := bind_ok' hi
          cases hy
          exact lt_of_lt_of_le (Nat.mod_lt _ (by omega)) hq
        have hpq : passVector mem qu = .ok qu := by
          have := C127_vector_passes mem qu [] hquw (by rw [hl, List.length_range]; exact hmem)
            (by rw [hl, List.length_range]; omega)
          rwa [List.append_nil] at this
        obtain ⟨hla, hwa⟩ := mapRes_mem h5
        have hpa : passVector mem ans = .ok ans := by
          have := C127_vector_passes mem ans [] (fun x hx => by
            obtain ⟨i, -, hi⟩ := hwa x hx
            exact lt_of_lt_of_le (inner_lt hi) hq) (by rw [hla, List.length_range]; exact hmem)
            (by rw [hla, List.length_range]; omega)
          rwa [List.append_nil] at this
        have hHl : H.length = P.rows := by
          unfold hintMatrix at h3
          split at h3
          · cases h3
          · cases h3; simp
        have hr : idx / P.rows < P.rows := by
          rw [Nat.div_lt_iff_lt_mul hrows, ← hacc.2.1]
          omega
        have hAl : c.A.length = P.rows := by rw [hc.A]; simp [clientMatrix]
        refine ⟨{ c with s := s, row := idx / P.rows }, ?_, hc.A, hint, h2, g2⟩
        unfold ask Client.query
        rw [if_neg hi, if_neg hq1, if_neg (by omega), hc.A, h4]
        simp only [Res.bind]
        rw [hpq]
        simp only
        rw [show V.answer P qu = .ok ans by unfold Server.answer; rw [if_neg hne, h5]]
        simp only
        rw [hpa]
        simp only
        have hrec : Client.recover P ⟨clientMatrix P (gen seed), c.hint, s, idx / P.rows⟩ ans = .ok v := by
          unfold recover at hv
          unfold Client.recover
          split at hv
          · cases hv
          · next a ha =>
            simp only [ha, hH, List.getElem?_eq_getElem (by omega : idx / P.rows < H.length)]
            rw [List.getD_eq_getElem _ _ (by omega)] at hv
            exact hv
        rw [hrec, ← hc.A]

/-- **C127.**  Any number of queries, one after the other, by any client that took the hint, earlier contents of both
objects notwithstanding: every entry asked for comes back, with seed, hint, queries and answers as bytes, under the
bounds of C79. -/
theorem C127_queries_in_turn_partial {P : Par} {k E : Nat} (hk : k ≤ 63) (hk1 : 0 < k) (hq : P.q = 2 ^ k)
    (hacc : P.accepted) (hE : P.rows * ((P.p - 1) * E) + P.q % P.p + 2 ^ 64 % (P.p * P.delta) < P.delta / 2)
    (gen : Nat → Nat → Nat) {seed : Nat} (hseed : seed < 2 ^ 128) {mem : Nat} (hmem : P.rows * P.dim ≤ mem)
    (hm64 : mem < 2 ^ 64) {db : List (List Nat)} (hdb : db.length = P.rows) (hrow : ∀ r ∈ db, r.length = P.rows)
    (hp : ∀ r ∈ db, ∀ v ∈ r, v < P.p) (V0 : Server) (c0 : Client) {reqs : List (List Nat × List Int × Nat)}
    (hr : ∀ r ∈ reqs, r.1.length = P.dim ∧ (∀ x ∈ r.2.1, |x| ≤ E) ∧ r.2.2 < P.N) (hne : reqs ≠ []) :
    ∃ V c, V0.setDatabase P db = .ok V ∧ connect mem P gen (V.generate P gen seed) c0 = .ok c ∧
      askAll mem P (V.generate P gen seed) c reqs = mapRes (fun r => getValue P db r.2.2) reqs := by
  have hq64 : P.q ≤ 2 ^ 64 := by rw [hq]; exact Nat.pow_le_pow_right (by norm_num) (by omega)
  have hret : ∀ r ∈ reqs, ∃ v, getValue P db r.2.2 = .ok v ∧ retrieve P (gen seed) db r.1 r.2.1 r.2.2 = .ok v := by
    intro r hr'
    obtain ⟨h1, h2, h3⟩ := hr r hr'
    have := every_entry_recovered hk hk1 hq hacc hE (gen seed) hdb hrow hp h1 h2 h3
    rw [this]
    unfold getValue
    rw [if_neg (by omega)]
    exact ⟨_, rfl, rfl⟩
  have hdim := hacc.2.2.1
  have hmem' : P.rows ≤ mem := le_trans (Nat.le_mul_of_pos_right _ hdim) hmem
  obtain ⟨r0, rs, hrs⟩ := List.exists_cons_of_ne_nil hne
  obtain ⟨v0, -, hv0⟩ := hret r0 (by rw [hrs]; simp)
  obtain ⟨V, c, e1, e2, e3, e4⟩ := connect_ok V0 c0 hmem hm64 hq64 hseed hv0
  refine ⟨V, c, e1, e2, ?_⟩
  clear e2 hrs hne hr
  have key : ∀ (reqs : List (List Nat × List Int × Nat)) (c : Client), Ready P gen seed db c →
      (∀ r ∈ reqs, ∃ v, getValue P db r.2.2 = .ok v ∧ retrieve P (gen seed) db r.1 r.2.1 r.2.2 = .ok v) →
      askAll mem P (V.generate P gen seed) c reqs = mapRes (fun r => getValue P db r.2.2) reqs := by
    intro reqs
    induction reqs with
    | nil => intro c _ _; rfl
    | cons r reqs ih =>
      intro c hc hret
      obtain ⟨s, e, idx⟩ := r
      obtain ⟨v, hv1, hv2⟩ := hret (s, e, idx) (by simp)
      have hdb' : (V.generate P gen seed).db = db := e3
      obtain ⟨c', a1, a2⟩ := ask_ok (V := V.generate P gen seed) (c := c) hmem' hm64 hq64 (by rw [hdb']; exact hc)
        (by rw [hdb']; exact hv2)
      rw [askAll, a1, mapRes]
      show (askAll mem P (V.generate P gen seed) c' reqs).bind _ = (getValue P db idx).bind _
      rw [hv1, ih c' (by rw [hdb'] at a2; exact a2) fun r hr => hret r (by simp [hr])]
      rfl
  exact key reqs c e4 hret

/-- Parameters of the examples. -/
def smallPar : Par := { dim := 1, q := 2 ^ 16, N := 4, p := 16 }

/-- The words of a seed. -/
def smallGen : Nat → Nat → Nat := fun seed i => seed + 91 * i + 5

/-- A client that has connected to a server with the database `db`. -/
def connected (db : List (List Nat)) : Res (Server × Client) :=
  ((({} : Server).setDatabase smallPar db).bind fun V => .ok (V.generate smallPar smallGen 7)).bind fun V =>
    (connect 100 smallPar smallGen V {}).bind fun c => .ok (V, c)

/-- **C127.**  A client keeps the secret and the row of its last query only: when two queries are under way, the first
answer gives a wrong entry, and nothing tells. -/
theorem C127_two_under_way :
    ((connected [[3, 15], [7, 9]]).bind fun x =>
      (ask 100 smallPar x.1 x.2 [1000] [0, 0] 1).bind fun r => .ok r.2) = .ok 15 ∧
    ∃ w, w ≠ 15 ∧ ((connected [[3, 15], [7, 9]]).bind fun x =>
      askTwo 100 smallPar x.1 x.2 [1000] [4321] [0, 0] [0, 0] 1 2) = .ok (w, 7) :=
  ⟨by decide +kernel, 5, by decide, by decide +kernel⟩

/-- **C127.**  A server that is given a new database does not tell the clients that have the hint of the old one: an
entry is wrong, in the old and in the new database. -/
theorem C127_stale_hint : ∃ w, w ≠ 14 ∧ w ≠ 15 ∧ ((connected [[3, 15], [7, 9]]).bind fun x =>
    (x.1.setDatabase smallPar [[3, 14], [7, 9]]).bind fun V =>
      (ask 100 smallPar V x.2 [1000] [0, 0] 1).bind fun r => .ok r.2) = .ok w :=
  ⟨5, by decide, by decide, by decide +kernel⟩

/-- **C127.**  A query before `Setup` and a hint before `SetDatabase` are not refused. -/
theorem C127_before_setup (P : Par) (hacc : P.accepted) (hq : 1 < P.q) (s : List Nat) (e : List Int) (idx : Nat)
    (hi : idx < P.N) : ({} : Client).query P s e idx = .undefined ∧ ({} : Server).hint P = .undefined ∧
      ∀ ans, ({} : Client).recover P ans = .undefined := by
  have hrows : 0 < P.rows := Nat.pos_of_ne_zero fun h0 => by
    have h1 := hacc.2.1
    have h2 := hacc.1
    rw [h0] at h1
    omega
  refine ⟨?_, rfl, fun ans => ?_⟩
  · unfold Client.query
    rw [if_neg (by omega), if_neg (by omega), if_pos (by simpa using hrows)]
  · simp [Client.recover]

/-! ### Examples -/

example := C127_vector_passes 10 [5, 2 ^ 64 - 1, 0] [1, 2] (by decide) (by decide) (by decide)
example := C127_seed_passes (2 ^ 128 - 1) (by decide)
example := C127_head_not_checked 10 2 [1, 2, 3, 4, 5, 6, 7, 8] (by decide) (by decide) (by decide)
example := (C127_short_message 10 [1, 2, 3]).1 (by decide)
example := (C127_wrong_length smallPar (by decide +kernel)).1 { db := [[3, 15], [7, 9]] } [1] (by decide +kernel)
  (by decide +kernel) (by decide +kernel)
example := (C127_wrong_length smallPar (by decide +kernel)).2 smallGen {} 7 [1] (by decide +kernel)
example := C127_queries_in_turn_partial (P := { dim := 2, q := 2 ^ 16, N := 4, p := 16 }) (k := 16) (E := 2) (by norm_num)
  (by norm_num) rfl (by decide +kernel) (by decide +kernel) smallGen (seed := 7) (by norm_num) (mem := 100)
  (by decide +kernel) (by norm_num) (db := [[3, 15], [7, 9]]) (by decide +kernel) (by decide +kernel) (by decide)
  {} {} (reqs := [([1234, 65535], [-2, 1], 1), ([1, 2], [0, 2], 2)]) (by decide) (by simp)
example := C127_before_setup smallPar (by decide +kernel) (by decide) [1] [0, 0] 1 (by decide)

end Psi.SimplePir
