import Verif.Ecdh.ResumeLemmas
import Verif.Ecdh.Props

/-!
# ECDH-PSI with recovery: property theorems (C14)

C14 does not hold of the code (`C14_wrong_index`, `C14_wrong_count`); `C14_resumed_lines_partial` says
what a run restarted once delivers and `C14_exact_iff_partial` when that is the right result.
-/

namespace Psi.Ecdh
open Psi.Bucket (Cache computeIndices itemsFrom)
open Psi.Spec
variable {α P : Type}

namespace Ex

/-- Batches of one item; the key 3 is common. -/
def rcfg : Cfg UInt8 UInt8 :=
  { cfg .all with input := fun r => if r then [[(2, 0)], [(3, 0)]] else [[(3, 4)]] }

theorem rlawful : rcfg.Lawful 2 where
  serLen := fun _ => rfl
  round := fun _ => rfl
  dualLe := by simp [rcfg, cfg]
  window := by intro w h; simp [rcfg, cfg] at h; omega
  nonempty := by intro r; cases r <;> simp [rcfg]
  small := by intro r; cases r <;> simp [rcfg]

theorem rcrypto : Crypto rcfg where
  comm := (crypto .all).comm
  inj := by intro r r'; cases r <;> cases r' <;> decide

/-- The first item of party `true` makes its way to the store of `true`; then both crash. -/
def sched1 : List (Task × Bool) := [(.maskSelf, true), (.maskPeer, false), (.recvDual, true)]

/-- The restarted run, to the end. -/
def sched2 : List (Task × Bool) :=
  [(.maskSelf, true), (.maskSelf, false), (.maskPeer, true), (.maskPeer, false), (.recvDual, true),
   (.recvDual, false), (.maskSelf, true), (.maskSelf, false), (.maskPeer, true), (.maskPeer, false),
   (.recvDual, true), (.recvDual, false)]

end Ex

/-- **C14** does not hold, second reason: when a restarted run begins inside a batch, the duplicate
counts stay at their old positions: the key `8`, which has no further rows, is sent with the count of
the key `7`, which was processed before. -/
theorem C14_wrong_count : skip 1 [[((7 : UInt8), 5), (8, 0), (9, 2)]] = some [[(8, 5), (9, 0)]] := by
  decide

/-- **C14**, what holds: both parties crash (the checkpoints hold the counts of state `s0`, the stores
the items of the same or a later state `s`) and are restarted.  The restarted run does not fail when it
skips the processed items, and when it is complete, the result consists of the right lines for the own
keys stored before the crash, and for each common key from the first unprocessed one on a line whose
index is counted from this key instead of from the first.  Missing: that these lines are the exact
intersection, which is false in general (`C14_exact_iff_partial`).  More restarts are in `Verif.Ecdh.RestartsProps`. -/
theorem C14_resumed_lines_partial [DecidableEq α] (c : Cfg α P) {L : Nat} (hc : c.Lawful L)
    (hx : Apart c) (sched0 sched1 : List (Task × Bool)) (s0 s : State α)
    (h0 : exec c sched0 (init c) = some s0) (h1 : exec c sched1 s0 = some s) (r : Bool)
    (hres : c.target = .all ∨ c.target = .rank r)
    (hash : List Char → Nat) (n : Nat) (hn : 0 < n)
    (hl : ∀ r, (c.items r).length ≤ 2 ^ 64) (hdup : ∀ r, ∀ x ∈ c.items r, x.2 < 2 ^ 32) :
    ∃ c', resume c s0 = some c' ∧ c'.Lawful L ∧
      processed c.target s0 r ≤ (s.party r).selfStore.length ∧
      ∀ sched2 s2, exec c' sched2 (init c') = some s2 → (s2.party r).finished = true →
        ∃ w u v, computeIndices
            (reopened hash n (s.party r).selfStore (s2.party r).selfStore)
            (reopened hash n (s.party r).peerStore (s2.party r).peerStore) = some (w, u, v) ∧
          w.Perm (resultLines ((c.items r).take (s.party r).selfStore.length) (c.items (!r)) ++
            resultLines ((c.items r).drop (processed c.target s0 r)) (c.items (!r))) := by
  have ht : c.target.canTouch r = true := by
    rcases hres with h | h <;> simp [h, Target.canTouch]
  obtain ⟨c', hc', hlaw, htar, hdual, hitems⟩ := resume_eq c hc sched0 s0 h0
  have hs := exec_append c sched0 sched1 _ _ _ h0 h1
  have pre := stores_prefix c hc (sched0 ++ sched1) s hs r
  obtain ⟨j, hj⟩ := pre.1 ht
  obtain ⟨k, hk⟩ := pre.2 ht
  have hlen1 : (s.party r).selfStore.length = upTo c r j := by rw [hj, length_take_upTo]
  have hlen2 : (s.party r).peerStore.length = upTo c (!r) k := by rw [hk, length_take_upTo]
  have grow := exec_grow c sched1 s0 s h1 r
  have hpk : processed c.target s0 (!r) ≤ upTo c (!r) k := by
    rw [← hlen2]
    refine Nat.le_trans ?_ grow.2
    unfold processed
    rw [Bool.not_not, ht]
    cases c.target.canTouch (!r) <;> simp
  have hpa : processed c.target s0 r ≤ (s.party r).selfStore.length := by
    refine Nat.le_trans ?_ grow.1
    unfold processed
    rw [ht]
    cases c.target.canTouch (!r) <;> simp
  refine ⟨c', hc', hlaw, hpa, ?_⟩
  intro sched2 s2 h2 fin
  obtain ⟨e1, e2⟩ := stores_final c' hlaw sched2 s2 h2 r fin (by rw [htar]; exact ht)
  simp only [hdual, hitems] at e1 e2
  have sub : ∀ r k, ∀ x ∈ (c.items r).take k, x ∈ c.items r := fun _ _ _ h => List.mem_of_mem_take h
  have sub' : ∀ r k, ∀ x ∈ (c.items r).drop k, x ∈ c.items r := fun _ _ _ h => List.mem_of_mem_drop h
  have fself : ∀ l : List (α × Nat), l.length ≤ (c.items r).length →
      Psi.Bucket.Fits (l.map (fun x => (dual2 c r x.1, 0))) := by
    intro l hll
    refine ⟨by rw [List.length_map]; exact Nat.le_trans hll (hl r), ?_⟩
    intro d hd
    obtain ⟨y, _, rfl⟩ := List.mem_map.mp hd
    exact Nat.two_pow_pos 32
  have fpeer : ∀ l : List (α × Nat), l.length ≤ (c.items (!r)).length → (∀ x ∈ l, x ∈ c.items (!r)) →
      Psi.Bucket.Fits (l.map (fun x => (dual2 c (!r) x.1, x.2))) := by
    intro l hll hsub
    refine ⟨by rw [List.length_map]; exact Nat.le_trans hll (hl (!r)), ?_⟩
    intro d hd
    obtain ⟨y, hy, rfl⟩ := List.mem_map.mp hd
    exact hdup (!r) y (hsub y hy)
  have f1 := fself ((c.items r).take (upTo c r j)) (by simp)
  have f2 := fself ((c.items r).drop (processed c.target s0 r)) (by simp)
  have f3 := fpeer ((c.items (!r)).take (upTo c (!r) k)) (by simp) (sub _ _)
  have f4 := fpeer ((c.items (!r)).drop (processed c.target s0 (!r))) (by simp) (sub' _ _)
  rw [hlen1]
  unfold reopened
  rw [hj, hk, e1, e2]
  obtain ⟨w, hw, hperm⟩ := Psi.Bucket.computeIndices_loads hash n hn _ _ _ _
    (Psi.Bucket.load_reopened hash n _ _ f1 f2 0 hn).1
    (Psi.Bucket.load_reopened hash n _ _ f3 f4 0 hn).1
    (fun b hb => (Psi.Bucket.load_reopened hash n _ _ f1 f2 b hb).2)
    (fun b hb => (Psi.Bucket.load_reopened hash n _ _ f3 f4 b hb).2)
  refine ⟨w, _, _, hw, hperm.trans (List.Perm.of_eq ?_)⟩
  have look : ∀ x ∈ c.items r, ((itemsFrom 0 (((c.items (!r)).take (upTo c (!r) k)).map
        (fun x => (dual2 c (!r) x.1, x.2))) ++ itemsFrom 0 (((c.items (!r)).drop
        (processed c.target s0 (!r))).map (fun x => (dual2 c (!r) x.1, x.2)))).find?
          (fun y => y.data64 == Psi.Text.base64 (dual2 c r x.1))).map (·.dup) =
      ((c.items (!r)).find? (fun y => y.1 = x.1)).map Prod.snd := by
    intro x hxm
    rw [find_items, ← List.map_append, find_dual2 c hx r x hxm _ (by
      intro y hy
      rcases List.mem_append.mp hy with hy | hy
      · exact sub _ _ y hy
      · exact sub' _ _ y hy), find_cover _ _ _ hpk, Option.map_map]
    rfl
  rw [List.filterMap_append]
  congr 1
  · exact lines_of_items _ _ (fun z => dual2 c r z) _ (fun x hx => look x (sub _ _ x hx))
  · exact lines_of_items _ _ (fun z => dual2 c r z) _ (fun x hx => look x (sub' _ _ x hx))

example : ∃ c', resume (Ex.cfg .all) (init (Ex.cfg .all)) = some c' := by
  obtain ⟨c', h, -⟩ := C14_resumed_lines_partial (Ex.cfg .all) (Ex.lawful .all) (Ex.crypto .all).apart
    [] Ex.sched _ _ rfl rfl true (Or.inl rfl) List.length 3 (by decide)
    (by intro r; cases r <;> decide) (by intro r; cases r <;> decide)
  exact ⟨c', h⟩

example := C14_resumed_lines_partial Ex.rcfg Ex.rlawful Ex.rcrypto.apart
    Ex.sched1 [] _ _ rfl rfl true (Or.inl rfl) List.length 3 (by decide)
    (by intro r; cases r <;> decide) (by intro r; cases r <;> decide)

/-- **C14** does not hold: a run of a task with keys `2, 3` against the single key `3` crashes after its
first batch was stored and is restarted.  It ends without an error, and reports key number 0 (the key
`2`) as the common one; an uninterrupted run reports key number 1. -/
theorem C14_wrong_index : ∃ s c' s2 u v, exec Ex.rcfg Ex.sched1 (init Ex.rcfg) = some s ∧
    resume Ex.rcfg s = some c' ∧ exec c' Ex.sched2 (init c') = some s2 ∧
    (s2.party true).finished = true ∧ (s2.party false).finished = true ∧
    computeIndices (reopened List.length 3 (s.party true).selfStore (s2.party true).selfStore)
      (reopened List.length 3 (s.party true).peerStore (s2.party true).peerStore)
      = some ([(0, 4)], u, v) ∧
    ¬ ExactIndex (Ex.rcfg.items true) (Ex.rcfg.items false) [(0, 4)] := by
  obtain ⟨c', hc', -, -, h⟩ := C14_resumed_lines_partial Ex.rcfg Ex.rlawful Ex.rcrypto.apart
    Ex.sched1 [] _ _ rfl rfl true (Or.inl rfl) List.length 3 (by decide)
    (by intro r; cases r <;> decide) (by intro r; cases r <;> decide)
  have hc2 : c' = { Ex.rcfg with input := fun r => if r then [[(3, 0)]] else [[(3, 4)]] } :=
    (Option.some.inj hc').symm
  subst hc2
  obtain ⟨w, u, v, hw, hp⟩ := h Ex.sched2 _ rfl rfl
  have hw1 : w = [(0, 4)] := List.perm_singleton.mp (hp.trans (List.Perm.of_eq (by decide)))
  subst hw1
  refine ⟨_, _, _, u, v, rfl, hc', rfl, rfl, rfl, hw, ?_⟩
  intro h
  obtain ⟨x, e, h1, h2⟩ := (h.mem 0 4).mp (by simp)
  simp only [Cfg.items, Ex.rcfg, if_true, List.flatten_cons, List.flatten_nil, List.append_nil,
    List.singleton_append, List.getElem?_cons_zero, Option.some.injEq, Prod.mk.injEq] at h1
  obtain ⟨rfl, rfl⟩ := h1
  exact absurd h2 (by decide)

/-- **C14**, when the restarted run is right: `w` are the lines it delivers, `a` the number of own keys
stored before the crash, `p` the number of own keys skipped.  They are the exact intersection if and
only if no common key comes at or after position `p`, or nothing was skipped and no common key comes
before position `a`. -/
theorem C14_exact_iff_partial [DecidableEq α] (own peer : List (α × Nat)) (a p : Nat) (hpa : p ≤ a)
    (hp : (peer.map Prod.fst).Nodup) (w : List (Nat × Nat))
    (hw : w.Perm (resultLines (own.take a) peer ++ resultLines (own.drop p) peer)) :
    ExactIndex own peer w ↔
      (∀ i x e, own[i]? = some (x, e) → x ∈ peer.map Prod.fst → i < p) ∨
      (p = 0 ∧ ∀ i x e, own[i]? = some (x, e) → x ∈ peer.map Prod.fst → a ≤ i) := by
  have memT : ∀ i d, (i, d) ∈ resultLines (own.take a) peer ↔
      i < a ∧ ∃ x e, own[i]? = some (x, e) ∧ (x, d) ∈ peer := by
    intro i d
    rw [mem_resultLines _ _ hp]
    by_cases hi : i < a
    · simp [hi]
    · simp [hi]
  have memD : ∀ i d, (i, d) ∈ resultLines (own.drop p) peer ↔
      ∃ x e, own[p + i]? = some (x, e) ∧ (x, d) ∈ peer := by
    intro i d
    rw [mem_resultLines _ _ hp, List.getElem?_drop]
  have inPeer : ∀ x, x ∈ peer.map Prod.fst ↔ ∃ d, (x, d) ∈ peer := by
    intro x
    simp [List.mem_map]
  have nilOf : ∀ l : List (α × Nat), (∀ i d, (i, d) ∉ resultLines l peer) → resultLines l peer = [] := by
    intro l h
    exact List.eq_nil_iff_forall_not_mem.mpr (fun ⟨i, d⟩ => h i d)
  constructor
  · intro hE
    have hnd : ((resultLines (own.take a) peer ++ resultLines (own.drop p) peer).map Prod.fst).Nodup :=
      ((hw.map Prod.fst).nodup_iff).mp hE.nodup
    rw [List.map_append, List.nodup_append] at hnd
    have disj : ∀ i d d', (i, d) ∈ resultLines (own.take a) peer →
        (i, d') ∈ resultLines (own.drop p) peer → False := by
      intro i d d' h1 h2
      exact hnd.2.2 i (List.mem_map.mpr ⟨_, h1, rfl⟩) i (List.mem_map.mpr ⟨_, h2, rfl⟩) rfl
    by_cases hp0 : p = 0
    · subst hp0
      right
      refine ⟨rfl, ?_⟩
      intro i x e hg hx
      obtain ⟨d, hd⟩ := (inPeer x).mp hx
      by_contra hlt
      exact disj i d d ((memT i d).mpr ⟨by omega, x, e, hg, hd⟩)
        ((memD i d).mpr ⟨x, e, by rw [Nat.zero_add]; exact hg, hd⟩)
    · left
      -- from a common position `i ≥ p` another one `i + p` follows
      have up : ∀ i x e, own[i]? = some (x, e) → x ∈ peer.map Prod.fst → p ≤ i →
          ∃ y f, own[p + i]? = some (y, f) ∧ y ∈ peer.map Prod.fst := by
        intro i x e hg hx hi
        obtain ⟨d, hd⟩ := (inPeer x).mp hx
        have h1 : (i, d) ∈ w := (hE.mem i d).mpr ⟨x, e, hg, hd⟩
        rcases List.mem_append.mp ((hw.mem_iff).mp h1) with h1 | h1
        · exfalso
          have hia := ((memT i d).mp h1).1
          have h2 : (i - p, d) ∈ resultLines (own.drop p) peer :=
            (memD _ _).mpr ⟨x, e, by rw [Nat.add_sub_cancel' hi]; exact hg, hd⟩
          have h3 : (i - p, d) ∈ w := (hw.mem_iff).mpr (List.mem_append.mpr (Or.inr h2))
          obtain ⟨y, f, hy, hyd⟩ := (hE.mem _ _).mp h3
          exact disj (i - p) d d ((memT _ _).mpr ⟨by omega, y, f, hy, hyd⟩) h2
        · obtain ⟨y, f, hy, hyd⟩ := (memD _ _).mp h1
          exact ⟨y, f, hy, (inPeer y).mpr ⟨d, hyd⟩⟩
      have far : ∀ m i x e, own[i]? = some (x, e) → x ∈ peer.map Prod.fst → p ≤ i →
          own.length ≤ i + m → False := by
        intro m
        induction m with
        | zero =>
          intro i x e hg _ _ hm
          rw [List.getElem?_eq_none (by omega)] at hg
          exact absurd hg (by simp)
        | succ m ih =>
          intro i x e hg hx hi hm
          obtain ⟨y, f, hy, hyx⟩ := up i x e hg hx hi
          exact ih (p + i) y f hy hyx (by omega) (by omega)
      intro i x e hg hx
      by_contra hlt
      exact far own.length i x e hg hx (by omega) (by omega)
  · rintro (h | ⟨rfl, h⟩)
    · have hn : resultLines (own.drop p) peer = [] := by
        apply nilOf
        intro i d hm
        obtain ⟨x, e, hg, hd⟩ := (memD i d).mp hm
        have := h _ x e hg ((inPeer x).mpr ⟨d, hd⟩)
        omega
      rw [hn, List.append_nil] at hw
      refine ⟨((hw.map Prod.fst).nodup_iff).mpr (resultLines_nodup _ _), ?_⟩
      intro i d
      rw [hw.mem_iff, memT]
      constructor
      · exact fun h => h.2
      · rintro ⟨x, e, hg, hd⟩
        have := h i x e hg ((inPeer x).mpr ⟨d, hd⟩)
        exact ⟨by omega, x, e, hg, hd⟩
    · have hn : resultLines (own.take a) peer = [] := by
        apply nilOf
        intro i d hm
        obtain ⟨hia, x, e, hg, hd⟩ := (memT i d).mp hm
        have := h _ x e hg ((inPeer x).mpr ⟨d, hd⟩)
        omega
      rw [hn, List.nil_append, List.drop_zero] at hw
      exact exact_of_lines own peer w hp hw

/-- A crash after the online phase of both parties: everything was processed, the result is exact. -/
example : ∀ w : List (Nat × Nat), w.Perm (resultLines (Ex.rcfg.items true) (Ex.rcfg.items false) ++ []) →
    ExactIndex (Ex.rcfg.items true) (Ex.rcfg.items false) w := fun w hw =>
  (C14_exact_iff_partial (Ex.rcfg.items true) (Ex.rcfg.items false) 2 2 (by decide)
    (by decide) w hw).mpr (Or.inl (by
      intro i x e h _
      have : i < (Ex.rcfg.items true).length := (List.getElem?_eq_some_iff.mp h).1
      exact this))

end Psi.Ecdh
