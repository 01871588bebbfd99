import Verif.Nty.Examples

/-!
# C74: what the receiver learns from the server's table

`GenOkvs` calls `Baxos::Solve` without a generator (`nty_mp_psi.cc:336-337`), so columns that no item needs stay zero
instead of being random.  The receiver has the table, and every item of the server decodes to a pseudorandom value.
-/

namespace Psi.Nty
open Psi.Gf128
open Psi.Okvs hiding Err
open Psi.Baxos hiding Err
open Psi.Rr22 Psi.Rr22.Oprf

variable {aes aesInv : Gf → Gf → Gf} {s : Setup} {C : Coins} {inputs : Nat → List Gf}

theorem backfill_free {V : Type} [AddCommGroup V] {rows : List Row} {rev : List (Nat × Nat)} {X d : Nat → V} {c : Nat}
    (h : c ∉ rev.map Prod.snd) : backfill rows rev X d c = 0 := by
  unfold backfill
  have : ∀ (l : List (Nat × Nat)) (P : Nat → V), c ∉ l.map Prod.snd → P c = 0 →
      l.foldl (fun P x => Function.update P x.2 (X x.1 + sparsePart P (cols rows x.1) + d x.1)) P c = 0 := by
    intro l
    induction l with
    | nil => intro P _ h; exact h
    | cons x l ih =>
      intro P hm hP
      rw [List.map_cons, List.mem_cons, not_or] at hm
      rw [List.foldl_cons]
      apply ih _ hm.2
      rw [Function.update_of_ne hm.1]
      exact hP
  exact this _ _ h rfl

/-- Without gap rows all columns that are no pivots are zero, whatever the values. -/
theorem encodeGf_free {rows : List Row} {S D : Nat} {pick : Tri → Nat} {X : Nat → Gf} {t : Tri}
    (ht : triangulate rows S pick S (Tri.init rows) = .ok t) (hg : t.gap = []) :
    ∃ P, encodeGf rows S D pick powCoef Gf.inv X = .ok (P, fun _ => 0) ∧ ∀ c ∉ t.main.map Prod.snd, P c = 0 := by
  refine ⟨backfill rows t.main.reverse X (fun _ => 0), ?_, fun c hc => backfill_free (by simpa using hc)⟩
  unfold encodeGf backfillGf
  simp only [ht, bind, Except.bind, hg, List.length_nil, Nat.not_lt_zero, if_false, if_true]

/-- There are no more pivots than items. -/
theorem pivots_le {rows : List Row} {S : Nat} {pick : Tri → Nat} {t : Tri}
    (ht : triangulate rows S pick S (Tri.init rows) = .ok t) : (t.main.map Prod.snd).length ≤ rows.length := by
  have h := (triangulate_once S (once_init rows)).1 t ht
  have hu : (used t).length ≤ rows.length := by
    have := h.nodup.subperm (l₂ := List.range rows.length) fun r hr => List.mem_range.2 (h.lt r hr)
    simpa using this.length_le
  have : (used t).length = t.main.length + t.gap.length := by
    unfold used
    simp
  rw [List.length_map]
  omega

/-- **C74** (violation) in a table of one bin without gap rows, every key whose columns are no pivots decodes to zero, whatever
the keys of the pseudorandom function. -/
theorem nty_free_zero {o : Store} {items : List Gf} {f : Gf → Gf} {T : Nat → Gf} (ok : o.Ok items.length) (h : o.Solves items f T)
    (hb : (o.cfg items.length).nBins = 1) {t : Tri}
    (ht : triangulate (rows32 (o.cfg items.length).avx2 (o.cfg items.length).w (o.cfg items.length).S (items.map o.hash))
      (o.cfg items.length).S o.pick (o.cfg items.length).S
      (Tri.init (rows32 (o.cfg items.length).avx2 (o.cfg items.length).w (o.cfg items.length).S (items.map o.hash))) = .ok t)
    (hg : t.gap = []) {x : Gf} (hx : ∀ c ∈ buildRow (o.cfg items.length).w (o.cfg items.length).S (o.hash x), c ∉ t.main.map Prod.snd) :
    o.dec items.length T x = 0 := by
  obtain ⟨P, hP, hz⟩ := encodeGf_free (D := (o.cfg items.length).D) (X := fun j => (items.map f).getD j 0) ht hg
  have hs := h.2
  unfold solve at hs
  simp only [bind, Except.bind, if_pos hb] at hs
  have hT : T = flat (o.cfg items.length).S (P, fun _ => 0) := by
    split_ifs at hs
    unfold encGf at hs
    rw [hP] at hs
    exact (Except.ok.inj hs).symm
  subst hT
  unfold Store.dec Baxos.lookup
  have h0 : binIdx (o.cfg items.length).nBins (o.hash x) = 0 := by rw [hb]; unfold binIdx; omega
  rw [h0, decode_congr (P' := fun _ => 0) (Q' := fun _ => 0)]
  · unfold decode sparsePart densePart
    simp
  · intro k hk
    have := (buildRow_spec ok.wf.wS (o.hash x)).2.2 k hk
    unfold flat
    rw [Nat.zero_mul, Nat.zero_add, if_pos this]
    exact hz k (hx k hk)
  · intro k hk
    unfold flat
    rw [Nat.zero_mul, Nat.zero_add, if_neg (by omega)]

/-- **C74** (violation) so the receiver sees that such an item is not one of the server's: for an item of the server the decoded value is
its pseudorandom value, which is zero for one key in `2 ^ 128`. -/
theorem nty_zero_absent (ho : Honest aes aesInv s C inputs) {T : Nat → Nat → Gf} (hT : Tables aes s C inputs T) {x : Gf}
    (hf : prfSum aes s C x ≠ 0) (hz : (C.store s.server).dec (inputs s.server).length (T s.server) x = 0) : x ∉ inputs s.server := by
  intro hx
  rw [(hT _ mem_senders_server).dec_eq (ho.store _ mem_senders_server) hx] at hz
  unfold encoded at hz
  rw [if_pos rfl] at hz
  exact hf hz

/-! ### A witness -/

namespace Ex

def leakItems : List Gf := [0, Gf.ofNat (3 + 4 * 2 ^ 32 + 5 * 2 ^ 64), Gf.ofNat (2 + 9 * 2 ^ 32 + 4 * 2 ^ 64)]
def leakItem : Gf := Gf.ofNat (5 + 6 * 2 ^ 32 + 7 * 2 ^ 64)

theorem leak_ok : store.Ok leakItems.length :=
  ⟨⟨by decide, by decide, by decide, by decide, by decide, by decide⟩, minPick_ok 10, by decide, by decide, by decide⟩

def leakCfg : Cfg := ⟨3, 1, 3, fun _ => 3, 3, 10, 2, true⟩
theorem leak_cfg : store.cfg leakItems.length = leakCfg := rfl

/-- The table has no gap rows and no pivot in the columns of the other item. -/
theorem leak_tri : ∃ t, triangulate (rows32 leakCfg.avx2 leakCfg.w leakCfg.S (leakItems.map store.hash)) leakCfg.S store.pick leakCfg.S
      (Tri.init (rows32 leakCfg.avx2 leakCfg.w leakCfg.S (leakItems.map store.hash))) = .ok t ∧ t.gap = [] ∧
      ∀ c ∈ buildRow leakCfg.w leakCfg.S (store.hash leakItem), c ∉ t.main.map Prod.snd := by
  have h : (match triangulate (rows32 leakCfg.avx2 leakCfg.w leakCfg.S (leakItems.map store.hash)) leakCfg.S store.pick leakCfg.S
      (Tri.init (rows32 leakCfg.avx2 leakCfg.w leakCfg.S (leakItems.map store.hash))) with
    | .ok t => decide (t.gap = [] ∧ ∀ c ∈ buildRow leakCfg.w leakCfg.S (store.hash leakItem), c ∉ t.main.map Prod.snd)
    | .error _ => false) = true := by decide +kernel
  generalize triangulate (rows32 leakCfg.avx2 leakCfg.w leakCfg.S (leakItems.map store.hash)) leakCfg.S store.pick leakCfg.S
      (Tri.init (rows32 leakCfg.avx2 leakCfg.w leakCfg.S (leakItems.map store.hash))) = r at h ⊢
  cases r with
  | ok t => exact ⟨t, rfl, of_decide_eq_true h⟩
  | error e => cases h


/-- A table of one bin is made as soon as there are no gap rows. -/
theorem solve_no_gaps {c : Cfg} {pick : Tri → Nat} {threads : Nat} {s1 s2 hs : List Nat} {t : Tri} (h1 : hs.length = c.nItems) (h2 : c.nBins = 1)
    (h3 : paxosInitOk c c.nItems = true)
    (ht : triangulate (rows32 c.avx2 c.w c.S hs) c.S pick c.S (Tri.init (rows32 c.avx2 c.w c.S hs)) = .ok t) (hg : t.gap = [])
    (X out0 : Nat → Gf) : ∃ T, solve c (encGf c pick) threads s1 s2 hs X out0 = .ok T := by
  obtain ⟨P, hP, -⟩ := encodeGf_free (D := c.D) (X := X) ht hg
  refine ⟨flat c.S (P, fun _ => 0), ?_⟩
  unfold solve
  simp only [bind, Except.bind]
  rw [if_neg (by omega), if_pos h2, if_neg (not_not.2 h3), if_neg (by omega)]
  unfold encGf
  rw [hP]
  rfl

theorem leak_solves (f : Gf → Gf) : ∃ T, store.Solves leakItems f T := by
  obtain ⟨t, h1, h2, -⟩ := leak_tri
  obtain ⟨T, hT⟩ := solve_no_gaps (threads := store.send.threads) (s1 := store.send.solve1) (s2 := store.send.solve2)
    (by rw [List.length_map]; rfl) rfl (by decide) h1 h2 (fun j => (leakItems.map f).getD j 0) (fun _ => 0)
  refine ⟨T, ?_, ?_⟩
  · intro h
    cases h
  · rw [leak_cfg]
    exact hT

theorem leak_absent : leakItem ∉ leakItems := by decide +kernel

/-- **C74** (violation) the table is made for all values, and for all values the other item decodes to zero. -/
theorem nty_leak (f : Gf → Gf) : leakItem ∉ leakItems ∧ ∃ T, store.Solves leakItems f T ∧ store.dec leakItems.length T leakItem = 0 ∧
    ∀ x ∈ leakItems, store.dec leakItems.length T x = f x := by
  obtain ⟨t, h1, h2, h3⟩ := leak_tri
  obtain ⟨T, hT⟩ := leak_solves f
  refine ⟨leak_absent, T, hT, nty_free_zero leak_ok hT (by rw [leak_cfg]; rfl) (t := t) ?_ h2 ?_, fun x hx => hT.dec_eq leak_ok hx⟩
  · rw [leak_cfg]
    exact h1
  · rw [leak_cfg]
    exact h3

example : ∃ t, triangulate (rows32 leakCfg.avx2 leakCfg.w leakCfg.S (leakItems.map store.hash)) leakCfg.S store.pick leakCfg.S
      (Tri.init (rows32 leakCfg.avx2 leakCfg.w leakCfg.S (leakItems.map store.hash))) = .ok t ∧ (t.main.map Prod.snd).length ≤ 3 := by
  obtain ⟨t, h, -⟩ := leak_tri
  have h1 := pivots_le h
  have h2 : (rows32 leakCfg.avx2 leakCfg.w leakCfg.S (leakItems.map store.hash)).length = 3 := by decide
  exact ⟨t, h, by omega⟩

end Ex
end Psi.Nty
