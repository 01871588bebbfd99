import Verif.ApsiCore.Spec

/-! # The sender computes the values of the polynomials -/

namespace Psi.ApsiCore

open Psi.Spiral (Res mapRes)

section

variable {F : Type} [Field F] {ι : Type}

/-- The powers of `v` that are in the list are known. -/
def Known (v : Vec F) (ps : Powers F) (l : List Nat) : Prop := ∀ i ∈ l, ps i = some fun s => v s ^ i

theorem load_ok (P : Params) (vs : Nat → Vec F) {idx : Nat} (hidx : idx < P.bundleCount) :
    ∀ (es : List Nat) (ps : Powers F) (l : List Nat), (∀ e ∈ es, e ≤ P.maxItems) → Known (vs idx) ps l →
      ∃ ps', load P idx (es.map fun e => (e, (List.range P.bundleCount).map fun b s => vs b s ^ e)) ps = .ok ps' ∧
        Known (vs idx) ps' (es ++ l)
  | [], ps, l, _, h => ⟨ps, rfl, h⟩
  | e :: es, ps, l, hes, h => by
    simp only [List.map_cons, load]
    rw [if_neg (by have := hes e (by simp); omega)]
    rw [List.getElem?_map, List.getElem?_range hidx]
    simp only [Option.map_some]
    obtain ⟨ps', h1, h2⟩ := load_ok P vs hidx es (Function.update ps e (some fun s => vs idx s ^ e)) (e :: l)
      (fun e he => hes e (List.mem_cons_of_mem _ he)) (by
        intro i hi
        by_cases hie : i = e
        · subst hie; rw [Function.update_self]
        · rw [Function.update_of_ne hie]
          exact h i ((List.mem_cons.mp hi).resolve_left hie))
    refine ⟨ps', h1, fun i hi => h2 i ?_⟩
    simp only [List.mem_append, List.mem_cons] at hi ⊢
    tauto

theorem computePowers_ok (v : Vec F) : ∀ (order : List Node) (ps : Powers F) (l : List Nat), Topo l order → Known v ps l →
    ∃ ps', computePowers order ps = .ok ps' ∧ Known v ps' (order.map Node.power ++ l)
  | [], ps, l, _, h => ⟨ps, rfl, h⟩
  | n :: ns, ps, l, ht, h => by
    obtain ⟨h1, h2⟩ := ht
    have step : ∃ ps1, nodeStep ps n = .ok ps1 ∧ Known v ps1 (n.power :: l) := by
      unfold nodeStep
      split at h1
      · rename_i hp
        rw [hp]
        refine ⟨ps, rfl, fun i hi => ?_⟩
        rcases List.mem_cons.mp hi with rfl | hi
        · exact h _ h1
        · exact h _ hi
      · rename_i a b hp
        rw [hp]
        obtain ⟨ha, hb, he⟩ := h1
        simp only [h a ha, h b hb]
        refine ⟨_, rfl, fun i hi => ?_⟩
        by_cases hie : i = n.power
        · subst hie
          rw [Function.update_self, he]
          congr 1
          funext s
          rw [pow_add]
        · rw [Function.update_of_ne hie]
          exact h i ((List.mem_cons.mp hi).resolve_left hie)
    obtain ⟨ps1, e1, k1⟩ := step
    obtain ⟨ps', e2, k2⟩ := computePowers_ok v ns ps1 (n.power :: l) h2 k1
    refine ⟨ps', ?_, fun i hi => k2 i ?_⟩
    · simp only [computePowers, e1, Res.bind, e2]
    · simp only [List.map_cons, List.mem_append, List.mem_cons] at hi ⊢
      tauto

theorem peval_split (s : Nat) (x : F) : ∀ (h : Nat) (cs : List (Vec F)), peval cs s x = peval (cs.take h) s x + x ^ h * peval (cs.drop h) s x
  | 0, cs => by simp [peval]
  | h + 1, [] => by simp [peval]
  | h + 1, c :: cs => by
    simp only [List.take_succ_cons, List.drop_succ_cons, peval]
    rw [peval_split s x h cs]
    ring

theorem evalFrom_ok (v : Vec F) (ps : Powers F) : ∀ (cs : List (Vec F)) (i : Nat),
    (∀ i', 1 ≤ i' → i ≤ i' → i' < i + cs.length → ps i' = some fun s => v s ^ i') →
      evalFrom ps i cs = .ok fun s => v s ^ i * peval cs s (v s)
  | [], i, _ => by
    simp only [evalFrom, peval, mul_zero]
  | c :: cs, i, h => by
    simp only [List.length_cons] at h
    simp only [evalFrom]
    by_cases hi : i = 0
    · subst hi
      rw [if_pos rfl, evalFrom_ok v ps cs 1 (fun i' a b d => h i' a (by omega) (by omega))]
      simp only [Res.bind]
      congr 1
      funext s
      simp only [peval]
      ring
    · rw [if_neg hi, getPower, h i (by omega) (by omega) (by omega)]
      simp only [Res.bind]
      rw [evalFrom_ok v ps cs (i + 1) (fun i' a b d => h i' a (by omega) (by omega))]
      simp only []
      congr 1
      funext s
      simp only [peval]
      ring

theorem evalBlocks_ok (v : Vec F) (ps : Powers F) (low : Nat) (cs : List (Vec F))
    (hl : ∀ i', 1 ≤ i' → i' ≤ low → ps i' = some fun s => v s ^ i') : ∀ (m a : Nat),
    (∀ i, 1 ≤ i → a ≤ i → i < a + m → ps (i * (low + 1)) = some fun s => v s ^ (i * (low + 1))) →
      evalBlocks ps low cs (List.range' a m) =
        .ok fun s => v s ^ (a * (low + 1)) * peval ((cs.drop (a * (low + 1))).take (m * (low + 1))) s (v s)
  | 0, a, _ => by
    simp only [List.range'_zero, evalBlocks, Nat.zero_mul, List.take_zero, peval, mul_zero]
  | m + 1, a, h => by
    rw [List.range'_succ]
    simp only [evalBlocks]
    rw [evalFrom_ok v ps _ 0 (fun i' h1 _ h3 => hl i' h1 (by
      have := List.length_take_le (low + 1) (cs.drop (a * (low + 1)))
      omega))]
    simp only [Res.bind]
    have key : ∀ s, v s ^ (a * (low + 1)) * peval ((cs.drop (a * (low + 1))).take ((m + 1) * (low + 1))) s (v s) =
        peval ((cs.drop (a * (low + 1))).take (low + 1)) s (v s) * v s ^ (a * (low + 1)) +
          v s ^ ((a + 1) * (low + 1)) * peval ((cs.drop ((a + 1) * (low + 1))).take (m * (low + 1))) s (v s) := by
      intro s
      rw [peval_split s (v s) (low + 1) ((cs.drop (a * (low + 1))).take ((m + 1) * (low + 1)))]
      have e1 : min (low + 1) ((m + 1) * (low + 1)) = low + 1 := by
        rw [Nat.add_mul, Nat.one_mul]
        omega
      have e2 : (m + 1) * (low + 1) - (low + 1) = m * (low + 1) := by
        rw [Nat.add_mul, Nat.one_mul]
        omega
      have e3 : a * (low + 1) + (low + 1) = (a + 1) * (low + 1) := by ring
      rw [List.take_take, e1, List.drop_take, List.drop_drop, e2, e3, ← e3, pow_add]
      ring
    by_cases ha : a = 0
    · subst ha
      rw [if_pos rfl]
      simp only []
      rw [evalBlocks_ok v ps low cs hl m 1 (fun i h1 h2 h3 => h i h1 (by omega) (by omega))]
      simp only []
      congr 1
      funext s
      rw [key s]
      simp
    · rw [if_neg ha, getPower, h a (by omega) (by omega) (by omega)]
      simp only []
      rw [evalBlocks_ok v ps low cs hl m (a + 1) (fun i h1 h2 h3 => h i h1 (by omega) (by omega))]
      simp only []
      congr 1
      funext s
      rw [key s]
      ring

/-- Both ways to evaluate give the value of the polynomial. -/
theorem evalPoly_ok (P : Params) (v : Vec F) (ps : Powers F) (cs : List (Vec F)) (hlen : cs.length ≤ P.maxItems + 1)
    (hps : ∀ i, Needed P i → ps i = some fun s => v s ^ i) : evalPoly P ps cs = .ok fun s => peval cs s (v s) := by
  unfold evalPoly
  split
  · rename_i hc
    obtain ⟨c1, c2⟩ := hc
    rw [List.range_eq_range', evalBlocks_ok v ps P.low cs (fun i h1 h2 => hps i ⟨h1, by omega, Or.inr (Or.inl h2)⟩)]
    · congr 1
      funext s
      rw [Nat.zero_mul, pow_zero, one_mul, List.drop_zero, List.take_of_length_le]
      have := Nat.lt_div_mul_add (a := cs.length - 1) (b := P.low + 1) (by omega)
      rw [Nat.add_mul, Nat.one_mul]
      omega
    · intro i h1 _ h3
      apply hps
      have h4 : i * (P.low + 1) ≤ cs.length - 1 := (Nat.le_div_iff_mul_le (by omega)).mp (by omega)
      have h5 : 1 * 1 ≤ i * (P.low + 1) := Nat.mul_le_mul h1 (by omega)
      exact ⟨by omega, by omega, Or.inr (Or.inr (Dvd.intro_left i rfl))⟩
  · rename_i hc
    rw [evalFrom_ok v ps cs 0]
    · congr 1
      funext s
      rw [pow_zero, one_mul]
    · intro i h1 _ h3
      apply hps
      refine ⟨h1, by omega, ?_⟩
      by_cases hl : P.low ≤ 1
      · exact Or.inl hl
      · exact Or.inr (Or.inl (by omega))

theorem mapRes_ok {α β : Type} (g : α → Res β) (h : α → β) : ∀ l : List α, (∀ a ∈ l, g a = .ok (h a)) → mapRes g l = .ok (l.map h)
  | [], _ => rfl
  | a :: l, hl => by
    simp only [mapRes, hl a (by simp), Res.bind, mapRes_ok g h l (fun b hb => hl b (List.mem_cons_of_mem _ hb)), List.map_cons]

/-- The package for a bundle. -/
def answer (db : Db F) (v : Vec F) (idx : Nat) (b : Bundle F) : Package F :=
  ⟨idx, db.nonceBytes, db.labelBytes, fun s => peval b.matching s (v s), b.labels.map fun l s => peval l s (v s)⟩

theorem bundlePackages_ok (P : Params) (db : Db F) (vs : Nat → Vec F) {es : List Nat} {order : Nat → List Node} (hg : Graph P es order)
    {idx : Nat} (hidx : idx < P.bundleCount)
    (hlen : ∀ b ∈ db.caches idx, b.matching.length ≤ P.maxItems + 1 ∧ ∀ l ∈ b.labels, l.length ≤ P.maxItems + 1) :
    bundlePackages P db (es.map fun e => (e, (List.range P.bundleCount).map fun b s => vs b s ^ e)) (order idx) idx =
      .ok ((db.caches idx).map (answer db (vs idx) idx)) := by
  unfold bundlePackages
  obtain ⟨ps, e1, k1⟩ := load_ok P vs hidx es (fun _ => none) [] hg.sources (fun i hi => by simp at hi)
  rw [e1]
  simp only [Res.bind]
  rw [List.append_nil] at k1
  by_cases he : (db.caches idx).isEmpty
  · rw [if_pos he]
    rw [List.isEmpty_iff] at he
    rw [he]
    rfl
  · rw [if_neg he]
    obtain ⟨ps', e2, k2⟩ := computePowers_ok (vs idx) (order idx) ps es (hg.topo idx) k1
    rw [e2]
    simp only []
    apply mapRes_ok
    intro b hb
    have hps : ∀ i, Needed P i → ps' i = some fun s => vs idx s ^ i := by
      intro i hi
      apply k2
      rw [List.mem_append]
      exact (hg.all idx i hi).symm
    unfold processCache
    rw [evalPoly_ok P (vs idx) ps' _ (hlen b hb).1 hps]
    simp only [Res.bind]
    rw [mapRes_ok _ _ b.labels (fun l hl => evalPoly_ok P (vs idx) ps' l ((hlen b hb).2 l hl) hps)]
    rfl

/-- The answer of the sender, package by package. -/
theorem runQuery_ok (P : Params) (db : Db F) (vs : Nat → Vec F) {es : List Nat} {order : Nat → List Node} (hg : Graph P es order)
    (hlen : ∀ idx < P.bundleCount, ∀ b ∈ db.caches idx, b.matching.length ≤ P.maxItems + 1 ∧ ∀ l ∈ b.labels, l.length ≤ P.maxItems + 1) :
    runQuery P db (es.map fun e => (e, (List.range P.bundleCount).map fun b s => vs b s ^ e)) order =
      .ok ((List.range P.bundleCount).flatMap fun idx => (db.caches idx).map (answer db (vs idx) idx)) := by
  unfold runQuery
  rw [mapRes_ok _ (fun idx => (db.caches idx).map (answer db (vs idx) idx))]
  · simp only [Res.bind, List.flatMap_def]
  · intro idx hi
    exact bundlePackages_ok P db vs hg (List.mem_range.mp hi) (hlen idx (List.mem_range.mp hi))

theorem forall₂_mem_left {α β : Type} {R : α → β → Prop} {l : List α} {l' : List β} (h : List.Forall₂ R l l') {a : α} (ha : a ∈ l) :
    ∃ b ∈ l', R a b := by
  induction h with
  | nil => simp at ha
  | cons hr _ ih =>
    rcases List.mem_cons.mp ha with rfl | ha
    · exact ⟨_, by simp, hr⟩
    · obtain ⟨b, hb, h⟩ := ih ha
      exact ⟨b, List.mem_cons_of_mem _ hb, h⟩

theorem represents_len {P : Params} {felt : ι → Nat → F} {lab : ι → Nat → Nat → F} {parts : Nat} {db : Db F} {ct : Content ι}
    (h : Represents P felt lab parts db ct) : ∀ idx < P.bundleCount, ∀ b ∈ db.caches idx,
      b.matching.length ≤ P.maxItems + 1 ∧ ∀ l ∈ b.labels, l.length ≤ P.maxItems + 1 := by
  intro idx hidx b hb
  obtain ⟨c, _, hc⟩ := forall₂_mem_left (h idx hidx) hb
  exact ⟨hc.matchLen, hc.labLen⟩

end

end Psi.ApsiCore
