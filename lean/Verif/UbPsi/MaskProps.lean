import Verif.UbPsi.MaskModel
import Mathlib.Data.List.Basic
import Mathlib.Tactic.Ring

/-!
# C131: what the server learns from the masked values of the intersection
-/

namespace Psi.UbMask

/-! ### Cutting the bytes of a batch -/

theorem cut_flatten {L : Nat} (hL : 0 < L) : ∀ {vs : List Bytes}, (∀ v ∈ vs, v.length = L) →
    vs.flatten.length = vs.length * L ∧ cut L vs.flatten = vs
  | [], _ => by simp [cut]
  | v :: vs, h => by
    have hv : v.length = L := h v (by simp)
    obtain ⟨h1, h2⟩ := cut_flatten hL (vs := vs) fun x hx => h x (by simp [hx])
    have hlen : (v :: vs).flatten.length = (vs.length + 1) * L := by
      rw [List.flatten_cons, List.length_append, h1, hv]
      ring
    refine ⟨by rw [hlen, List.length_cons], ?_⟩
    unfold cut at h2 ⊢
    rw [hlen, Nat.mul_div_cancel _ hL, List.range_succ_eq_map, List.map_cons, List.map_map]
    rw [h1, Nat.mul_div_cancel _ hL] at h2
    congr 1
    · simp [← hv]
    · refine Eq.trans (List.map_congr_left fun i _ => ?_) h2
      show ((v ++ vs.flatten).drop ((i + 1) * L)).take L = _
      have : (i + 1) * L = v.length + i * L := by rw [hv]; ring
      rw [this, List.drop_append, List.drop_eq_nil_of_le (by omega), List.nil_append, Nat.add_sub_cancel_left]

theorem flatten_eq {T : Type} (dec : T → Option Bytes) (items : List T) :
    flatten dec items = (items.filterMap dec).flatten := by
  unfold flatten
  induction items with
  | nil => rfl
  | cons e es ih =>
    rw [List.flatMap_cons, ih, List.filterMap_cons]
    cases dec e <;> simp

theorem collect_send {T : Type} (dec : T → Option Bytes) {L : Nat} (hL : 0 < L) : ∀ (batches : List (List T))
    (sent : List Bytes), (∀ b ∈ batches, b ≠ []) → (∀ b ∈ batches, ∀ e ∈ b, ∀ v, dec e = some v → v.length = L) →
    collect L (send dec batches) sent = .ok (sent ++ batches.flatten.filterMap dec)
  | [], sent, _, _ => by simp [send, collect]
  | [] :: bs, sent, h, _ => absurd rfl (h [] (by simp))
  | (e :: b) :: bs, sent, h, hl => by
    have hlen : ∀ v ∈ (e :: b).filterMap dec, v.length = L := by
      intro v hv
      obtain ⟨x, hx, hx'⟩ := List.mem_filterMap.1 hv
      exact hl _ (by simp) x hx v hx'
    obtain ⟨h1, h2⟩ := cut_flatten hL hlen
    show collect L (.data (flatten dec (e :: b)) :: send dec bs) sent = _
    unfold collect
    rw [flatten_eq, if_neg (by omega), if_neg (by rw [h1]; simp), h2,
      collect_send dec hL bs _ (fun x hx => h x (by simp [hx])) (fun x hx => hl x (by simp [hx])), List.flatten_cons,
      List.filterMap_append, List.append_assoc]

/-! ### The tasks -/

theorem tasks_cover (n s : Nat) : ∀ k, (List.range k).flatMap (fun i => List.range' (i * s) (min n (i * s + s) - i * s)) =
    List.range (min n (k * s))
  | 0 => by simp
  | k + 1 => by
    have e : (k + 1) * s = k * s + s := Nat.succ_mul k s
    rw [List.range_succ, List.flatMap_append, tasks_cover n s k, e]
    simp only [List.flatMap_cons, List.flatMap_nil, List.append_nil]
    rcases Nat.le_total (k * s) n with h | h
    · rw [Nat.min_eq_right h, List.range_eq_range', List.range_eq_range']
      have := List.range'_append (s := 0) (m := k * s) (n := min n (k * s + s) - k * s) (step := 1)
      rw [Nat.one_mul, Nat.zero_add] at this
      rw [this]
      congr 1
      omega
    · have h1 : min n (k * s + s) - k * s = 0 := by omega
      rw [h1, Nat.min_eq_left h, Nat.min_eq_left (by omega)]
      simp

/-- The entries of a batch with their positions. -/
def Batch.entries (B : Batch) : List (Bytes × Nat) := B.items.zip B.indices

theorem zip_filterMap (p : Bytes → Prop) [DecidablePred p] : ∀ (l : List Bytes) (m : List Nat), l.length = m.length →
    (List.range l.length).filterMap (fun i => if p (l.getD i []) then some (m.getD i 0) else none) =
      ((l.zip m).filter fun x => p x.1).map Prod.snd
  | [], [], _ => rfl
  | a :: l, b :: m, h => by
    have ih := zip_filterMap p l m (by simpa using h)
    rw [List.length_cons, List.range_succ_eq_map, List.filterMap_cons, List.filterMap_map, List.zip_cons_cons,
      List.filter_cons]
    have e : ((fun i => if p ((a :: l).getD i []) then some ((b :: m).getD i 0) else none) ∘ Nat.succ) =
        fun i => if p (l.getD i []) then some (m.getD i 0) else none := by
      funext i
      simp
    rw [e, ih]
    by_cases hp : p a <;> simp [hp]
  | [], _ :: _, h => by cases h
  | _ :: _, [], h => by cases h

theorem compareBatch_eq (sent : List Bytes) {procs : Nat} (hp : 0 < procs) {B : Batch} (h : B.items.length = B.indices.length) :
    compareBatch sent procs B = (B.entries.filter fun x => x.1 ∈ sent).map Prod.snd := by
  have hcover : B.items.length ≤ procs * ((B.items.length + procs - 1) / procs) := by
    have h1 := Nat.div_add_mod (B.items.length + procs - 1) procs
    have h2 := Nat.mod_lt (B.items.length + procs - 1) hp
    omega
  unfold compareBatch Batch.entries
  rw [← zip_filterMap (· ∈ sent) _ _ h]
  have := tasks_cover B.items.length ((B.items.length + procs - 1) / procs) procs
  rw [Nat.min_eq_left hcover] at this
  rw [← this, List.filterMap_flatMap]
  rfl

theorem scan_eq (sent : List Bytes) {procs : Nat} (hp : 0 < procs) : ∀ (cache : List Batch),
    (∀ B ∈ cache, B.items ≠ [] ∧ B.items.length = B.indices.length) →
    scan sent procs cache = .ok (((cache.flatMap Batch.entries).filter fun x => x.1 ∈ sent).map Prod.snd,
      (cache.flatMap Batch.entries).length)
  | [], _ => rfl
  | B :: Bs, h => by
    obtain ⟨h1, h2⟩ := h B (by simp)
    unfold scan
    rw [if_neg h1, if_neg (by omega), if_neg (by omega), scan_eq sent hp Bs fun x hx => h x (by simp [hx])]
    simp only
    rw [compareBatch_eq sent hp h2, List.flatMap_cons, List.filter_append, List.map_append, List.length_append]
    have : B.entries.length = B.items.length := by
      unfold Batch.entries
      rw [List.length_zip]
      omega
    rw [this]

/-! ### C131 -/

/-- C131: the server gets the positions of exactly those cache entries whose masked value is among those the client sent, in
the order of the cache, and the size of the cache; however many processors it has, however the values and the cache are cut
into batches.  A text of the client that is not Base64 counts for nothing. -/
theorem C131_exact {T : Type} (dec : T → Option Bytes) {L procs : Nat} (hL : 0 < L) (hp : 0 < procs) {batches : List (List T)}
    (hne : ∀ b ∈ batches, b ≠ []) (hlen : ∀ b ∈ batches, ∀ e ∈ b, ∀ v, dec e = some v → v.length = L) {cache : List Batch}
    (hc : ∀ B ∈ cache, B.items ≠ [] ∧ B.items.length = B.indices.length) :
    ∃ found, recv L procs (send dec batches) cache = .ok (found, (cache.map fun B => B.items.length).sum) ∧
      found = ((cache.flatMap fun B => B.items.zip B.indices).filter fun x =>
        decide (x.1 ∈ batches.flatten.filterMap dec)).map Prod.snd := by
  refine ⟨_, ?_, rfl⟩
  unfold recv
  rw [collect_send dec hL batches [] hne hlen]
  simp only
  rw [List.nil_append, scan_eq _ hp cache hc]
  congr 2
  rw [List.length_flatMap]
  congr 1
  refine List.map_congr_left fun B hB => ?_
  unfold Batch.entries
  rw [List.length_zip, (hc B hB).2, Nat.min_self]

/-- C131: with a mask that separates items, the server gets the positions of its items that the client named, and no others.
The `i`-th item of the server is at position `pos i`. -/
theorem C131_intersection {α T : Type} (dec : T → Option Bytes) (mask : α → Bytes) {L procs : Nat} (hL : 0 < L) (hp : 0 < procs)
    {batches : List (List T)} (hne : ∀ b ∈ batches, b ≠ []) (named : T → α)
    (hdec : ∀ b ∈ batches, ∀ e ∈ b, dec e = some (mask (named e))) (hlen : ∀ a, (mask a).length = L)
    {server : List (List (α × Nat))} (hs : ∀ B ∈ server, B ≠ [])
    (hinj : ∀ b ∈ batches, ∀ e ∈ b, ∀ B ∈ server, ∀ x ∈ B, mask x.1 = mask (named e) → x.1 = named e) :
    ∃ found, recv L procs (send dec batches) (server.map fun B => ⟨B.map fun x => mask x.1, B.map Prod.snd⟩) =
        .ok (found, server.flatten.length) ∧
      ∀ i, i ∈ found ↔ ∃ x ∈ server.flatten, x.2 = i ∧ ∃ e ∈ batches.flatten, named e = x.1 := by
  obtain ⟨found, h1, h2⟩ := C131_exact dec hL hp hne (fun b hb e he v hv => by
    rw [hdec b hb e he] at hv
    rw [← Option.some.inj hv]
    exact hlen _) (cache := server.map fun B => ⟨B.map fun x => mask x.1, B.map Prod.snd⟩) (by
      intro B hB
      obtain ⟨S, hS, rfl⟩ := List.mem_map.1 hB
      simp [hs S hS])
  refine ⟨found, ?_, fun i => ?_⟩
  · rw [h1]
    congr 2
    rw [List.length_flatten, List.map_map]
    congr 1
    refine List.map_congr_left fun B _ => ?_
    simp
  · rw [h2]
    have hz : ∀ S : List (α × Nat), (S.map fun x => mask x.1).zip (S.map Prod.snd) = S.map fun x => (mask x.1, x.2) := by
      intro S
      induction S with
      | nil => rfl
      | cons x S ih => rw [List.map_cons, List.map_cons, List.zip_cons_cons, ih, List.map_cons]
    constructor
    · intro h
      obtain ⟨y, hy, rfl⟩ := List.mem_map.1 h
      obtain ⟨hy1, hy2⟩ := List.mem_filter.1 hy
      obtain ⟨B, hB, hy1⟩ := List.mem_flatMap.1 hy1
      obtain ⟨S, hS, rfl⟩ := List.mem_map.1 hB
      simp only [hz] at hy1
      obtain ⟨x, hx, rfl⟩ := List.mem_map.1 hy1
      obtain ⟨e, he, he'⟩ := List.mem_filterMap.1 (of_decide_eq_true hy2)
      obtain ⟨b, hb, heb⟩ := List.mem_flatten.1 he
      rw [hdec b hb e heb] at he'
      refine ⟨x, List.mem_flatten.2 ⟨S, hS, hx⟩, rfl, e, he, ?_⟩
      exact (hinj b hb e heb S hS x hx (Option.some.inj he').symm).symm
    · rintro ⟨x, hx, rfl, e, he, hex⟩
      obtain ⟨S, hS, hx⟩ := List.mem_flatten.1 hx
      obtain ⟨b, hb, heb⟩ := List.mem_flatten.1 he
      refine List.mem_map.2 ⟨(mask x.1, x.2), List.mem_filter.2 ⟨?_, ?_⟩, rfl⟩
      · refine List.mem_flatMap.2 ⟨_, List.mem_map.2 ⟨S, hS, rfl⟩, ?_⟩
        simp only [hz]
        exact List.mem_map.2 ⟨x, hx, rfl⟩
      · refine decide_eq_true (List.mem_filterMap.2 ⟨e, he, ?_⟩)
        rw [hdec b hb e heb, hex]

/-- C131: a batch whose bytes are not whole values is refused. -/
theorem C131_ragged_refused {T : Type} (dec : T → Option Bytes) {L procs : Nat} (hL : 0 < L) {b : List T} (hb : b ≠ [])
    (rest : List (List T)) (h : (b.filterMap dec).flatten.length % L ≠ 0) (cache : List Batch) :
    recv L procs (send dec (b :: rest)) cache = .throws := by
  obtain ⟨e, es, rfl⟩ := List.exists_cons_of_ne_nil hb
  unfold recv
  show (match collect L (.data (flatten dec (e :: es)) :: send dec rest) [] with
    | .ok sent => scan sent procs cache
    | .throws => .throws
    | .undefined => .undefined
    | .waits => .waits) = _
  unfold collect
  rw [flatten_eq, if_neg (by omega), if_pos h]

/-- **Violated.**  Nothing looks at the single values: two texts of the client that decode to other lengths, neither of which
is a value of the cache, count as the two values that their bytes make up together. -/
theorem C131_lengths_not_checked {T : Type} (dec : T → Option Bytes) {L procs k : Nat} (hL : 0 < L) (hp : 0 < procs)
    {v w : Bytes} (hv : v.length = L) (hw : w.length = L) {e f : T} (he : dec e = some ((v ++ w).take k))
    (hf : dec f = some ((v ++ w).drop k)) {cache : List Batch}
    (hc : ∀ B ∈ cache, B.items ≠ [] ∧ B.items.length = B.indices.length) :
    ∃ total, recv L procs (send dec [[e, f]]) cache = .ok (((cache.flatMap fun B => B.items.zip B.indices).filter fun x =>
      decide (x.1 = v ∨ x.1 = w)).map Prod.snd, total) := by
  refine ⟨(cache.flatMap Batch.entries).length, ?_⟩
  have hflat : flatten dec [e, f] = [v, w].flatten := by
    rw [flatten_eq]
    simp [he, hf]
  obtain ⟨h1, h2⟩ := cut_flatten hL (vs := [v, w]) (by simp [hv, hw])
  unfold recv
  show (match collect L (.data (flatten dec [e, f]) :: [.last]) [] with
    | .ok sent => scan sent procs cache
    | .throws => .throws
    | .undefined => .undefined
    | .waits => .waits) = _
  unfold collect collect
  rw [hflat, if_neg (by omega), if_neg (by rw [h1]; simp), h2]
  simp only
  rw [scan_eq _ hp cache hc]
  simp only [List.nil_append, List.mem_cons, List.not_mem_nil, or_false]
  rfl

/-! ### Examples -/

/-- Texts are bytes; those that begin with 0 are not Base64. -/
def exDec (e : Bytes) : Option Bytes := if e.head? = some 0 then none else some e

def exCache : List Batch := [⟨[[1, 2], [3, 4], [5, 6]], [7, 0, 4]⟩, ⟨[[7, 8], [1, 2]], [2, 9]⟩]

theorem exCache_ok : ∀ B ∈ exCache, B.items ≠ [] ∧ B.items.length = B.indices.length := by decide

example := C131_exact exDec (L := 2) (procs := 4) (by decide) (by decide) (batches := [[[5, 6], [0, 1, 2]], [[1, 2]]]) (by decide)
  (by decide) exCache_ok

example : recv 2 4 (send exDec [[[5, 6], [0, 1, 2]], [[1, 2]]]) exCache = .ok ([7, 4, 9], 5) := by decide

example := C131_intersection exDec (fun a : Nat => [a + 1, 5]) (L := 2) (procs := 3) (by decide) (by decide)
  (batches := [[[3, 5]], [[8, 5], [4, 5]]]) (by decide) (fun e => e.headD 0 - 1) (by decide) (fun _ => rfl)
  (server := [[(2, 1), (9, 0)], [(3, 2)]]) (by decide) (by decide)

example := C131_ragged_refused exDec (L := 2) (procs := 4) (by decide) (b := [[5, 6], [1, 2, 3]]) (by decide) [[[7, 8]]] (by decide)
  exCache

/-- Texts of one and of three bytes. -/
example := C131_lengths_not_checked exDec (L := 2) (procs := 4) (k := 1) (by decide) (by decide) (v := [1, 2]) (w := [7, 8]) rfl rfl
  (e := [1]) (f := [2, 7, 8]) rfl rfl exCache_ok

end Psi.UbMask
