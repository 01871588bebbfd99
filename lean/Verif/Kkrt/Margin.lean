import Verif.Kkrt.ResultLemmas
import Verif.Kkrt.Counting
import Mathlib.Data.Nat.Log

/-!
# KKRT-PSI: how long the encodings are, and how often they go wrong

`KkrtEncodeSize`, `psi/algorithm/kkrt/kkrt_psi.cc:63-72`.  The logarithm (a `long double`) enters through the integer part of
the sum, as a function `lg`.

The random values: the oblivious PRF as an ideal random function of bin and item (128-bit hashes), the random bytes of the slots
without bin as further independent values.
-/

namespace Psi.Kkrt
open Psi.Cuckoo (getHash Options Table inputIdx kEmpty minCollidingHashIdx insertAll)
open Psi.Ecdh (Bytes Msg)
open Psi.Spec

/-- `KkrtEncodeSize`: `kkrt_psi.cc:67-72`; the product of the sizes is a 128-bit number. -/
def encodeSize (lg : Nat → Nat) (ssp self peer : Nat) : Nat := min ((ssp + lg (self * peer % 2 ^ 128) + 7) / 8) 16

/-- Where values are drawn: a bin and an item, or a position and a hash function without bin (`kkrt_psi.cc:200-213`). -/
abbrev Point (nb m : Nat) : Type := (Fin nb × Fin (2 ^ 128)) ⊕ (Fin m × Fin 3)

/-- All values. -/
abbrev Draw (nb m size : Nat) : Type := Point nb m → Fin size → Fin 256

def bytesOf {size : Nat} (v : Fin size → Fin 256) : Bytes := List.ofFn fun i => UInt8.ofNat (v i).val

/-- The encoding of an item in a bin. -/
def encOf {nb m size : Nat} (ω : Draw nb m size) (b x : Nat) : Bytes :=
  if h : b < nb ∧ x < 2 ^ 128 then bytesOf (ω (.inl (⟨b, h.1⟩, ⟨x, h.2⟩))) else List.replicate size 0

/-- The random bytes of a slot without bin. -/
def fillOf {nb m size : Nat} (ω : Draw nb m size) (pos h : Nat) : Bytes :=
  if k : pos < m ∧ h < 3 then bytesOf (ω (.inr (⟨pos, k.1⟩, ⟨h, k.2⟩))) else List.replicate size 0

/-- A run with these values. -/
def drawn (numBinsOf : Nat → Nat) (batch nb m size : Nat) (ω : Draw nb m size) : Params := ⟨numBinsOf, size, encOf ω, batch⟩

/-! ### Lengths and equality -/

theorem bytesOf_inj {size : Nat} {v w : Fin size → Fin 256} (h : bytesOf v = bytesOf w) : v = w := by
  have h := List.ofFn_injective h
  funext i
  have hi := congrArg UInt8.toNat (congrFun h i)
  rw [UInt8.toNat_ofNat', UInt8.toNat_ofNat', Nat.mod_eq_of_lt (v i).2, Nat.mod_eq_of_lt (w i).2] at hi
  exact Fin.ext hi

theorem encOf_length {nb m size : Nat} (ω : Draw nb m size) (b x : Nat) : (encOf ω b x).length = size := by
  unfold encOf
  split <;> simp [bytesOf]

theorem fillOf_length {nb m size : Nat} (ω : Draw nb m size) (b x : Nat) : (fillOf ω b x).length = size := by
  unfold fillOf
  split <;> simp [bytesOf]

/-! ### What the receiver compares with -/

/-- Where the table holds the items: bin and hash function of each, and what the three maps contain. -/
theorem places (nbOf : Nat → Nat) (batch : Nat) (xs : List Nat) (t : Table) (hx : xs.length ≤ 2 ^ 56)
    (ht : insertAll ⟨xs.length, 0, 3, nbOf xs.length, 128⟩ [xs] = .ok t) :
    ∃ bin hsh : Nat → Nat, (∀ i, i < xs.length → hsh i < 3 ∧ bin i < nbOf xs.length ∧
        slots (nbOf xs.length) (xs.getD i 0) (hsh i) = some (bin i)) ∧
      ∀ size F j v i, (v, i) ∈ encodeMap ⟨nbOf, size, F, batch⟩ xs t j ↔
        i < xs.length ∧ hsh i = j ∧ v = F (bin i) (xs.getD i 0) := by
  have hflat : [xs].flatten = xs := by simp
  obtain ⟨hh, _, pl⟩ := Psi.Cuckoo.C19_placed ⟨xs.length, 0, 3, nbOf xs.length, 128⟩ (by simp) (by simp) hx [xs] t ht
  rw [hflat] at pl
  have key : ∀ i, ∃ b j : Nat, i < xs.length → (j < 3 ∧ b < nbOf xs.length ∧ slots (nbOf xs.length) (xs.getD i 0) j = some b ∧
      minCollidingHashIdx ⟨xs.length, 0, 3, nbOf xs.length, 128⟩ t b = some j ∧
      (∃ e : Nat, t.bins[b]? = some e ∧ e ≠ 2 ^ 64 - 1 ∧ e % 2 ^ 56 = i) ∧
      ∀ b' e' : Nat, t.bins[b']? = some e' → e' ≠ 2 ^ 64 - 1 → e' % 2 ^ 56 = i → b' = b) := by
    intro i
    by_cases hi : i < xs.length
    · obtain ⟨b, ⟨e, hb, hne, hei⟩, huniq⟩ := Psi.Cuckoo.C19_no_stash ⟨xs.length, 0, 3, nbOf xs.length, 128⟩ (by simp) (by simp)
        hx rfl [xs] t ht i (by rw [hflat]; exact hi)
      obtain ⟨j0, code, hmin, hcode, hle, hbin, hbefore⟩ := Psi.Cuckoo.C19_min_colliding
        ⟨xs.length, 0, 3, nbOf xs.length, 128⟩ (by simp) (by simp) hx [xs] t ht b e hb hne
      obtain ⟨_, _, h3, _⟩ := pl.own_bin b e hb hne
      rw [hflat, hei] at hcode
      have hj0 : j0 < 3 := Nat.lt_of_le_of_lt hle h3
      have hD : xs.getD i 0 = code := by rw [List.getD_eq_getElem?_getD, hcode]; rfl
      have hlt : b < nbOf xs.length := by
        have := (List.getElem?_eq_some_iff.mp hb).1
        rwa [pl.bins_length] at this
      refine ⟨b, j0, fun _ => ⟨hj0, hlt, ?_, hmin, ⟨e, hb, hne, hei⟩, fun b' e' h1 h2 h3 => huniq b' ⟨e', h1, h2, h3⟩⟩⟩
      rw [hD]
      exact (slots_iff _ code j0 b hj0).mpr ⟨hbin, hbefore⟩
    · exact ⟨0, 0, fun h => absurd h hi⟩
  choose bin hsh hk using key
  refine ⟨bin, hsh, fun i hi => ⟨(hk i hi).1, (hk i hi).2.1, (hk i hi).2.2.1⟩, fun size F j v i => ?_⟩
  rw [encodeMap_mem]
  constructor
  · rintro ⟨b, e, h1, h2, h3, h4, h5⟩
    obtain ⟨code, hcode, _⟩ := pl.own_bin b e h1 h2
    have h3 : e % 2 ^ 56 = i := h3
    rw [h3] at hcode
    have hi : i < xs.length := (List.getElem?_eq_some_iff.mp hcode).1
    obtain ⟨_, _, _, k4, _, k6⟩ := hk i hi
    have hb := k6 b e h1 h2 h3
    subst hb
    have h4 : minCollidingHashIdx ⟨xs.length, 0, 3, nbOf xs.length, 128⟩ t (bin i) = some j := h4
    rw [k4] at h4
    exact ⟨hi, Option.some.inj h4, h5⟩
  · rintro ⟨hi, rfl, rfl⟩
    obtain ⟨_, _, _, k4, ⟨e, k5, k6, k7⟩, _⟩ := hk i hi
    exact ⟨bin i, e, k5, k6, k7, k4, rfl⟩

/-- The lookups of a position find its item and nothing else, unless its encoding in some slot is that of another item. -/
theorem hits_places {maps : Nat → List (Bytes × Nat)} {xs : List Nat} (hnd : xs.Nodup) {bin hsh : Nat → Nat} {nb : Nat}
    {F : Nat → Nat → Bytes} (h1 : ∀ i, i < xs.length → hsh i < 3 ∧ bin i < nb ∧ slots nb (xs.getD i 0) (hsh i) = some (bin i))
    (h2 : ∀ j v i, (v, i) ∈ maps j ↔ i < xs.length ∧ hsh i = j ∧ v = F (bin i) (xs.getD i 0))
    {buf : Nat → Nat → Bytes} {cnt perm : Nat → Nat} {fill : Nat → Nat → Bytes} {q y : Nat}
    (hbuf : ∀ h, h < 3 → buf q h = match slots nb y h with | some b => F b y | none => fill q h)
    (hno : ∀ i, i < xs.length → xs.getD i 0 ≠ y → buf q (hsh i) ≠ F (bin i) (xs.getD i 0)) :
    hits maps buf cnt perm q = ((posOf xs y).map (fun i => (i, if 1 < cnt (perm q) then cnt (perm q) else 0))).toList := by
  have hget : ∀ i, i < xs.length → xs[i]? = some (xs.getD i 0) := fun i hi => by
    rw [List.getD_eq_getElem?_getD, List.getElem?_eq_getElem hi]; rfl
  have hsome : ∀ j i, lookup (maps j) (buf q j) = some i → xs[i]? = some y ∧ hsh i = j := by
    intro j i hl
    unfold lookup at hl
    obtain ⟨⟨v, i'⟩, hf, rfl⟩ := Option.map_eq_some_iff.1 hl
    have hv := List.find?_some hf
    simp only [decide_eq_true_eq] at hv
    obtain ⟨hi, hj, e⟩ := (h2 j v i').1 (List.mem_of_find?_eq_some hf)
    refine ⟨?_, hj⟩
    by_contra hne
    have hxy : xs.getD i' 0 ≠ y := fun h => hne (by rw [hget i' hi, h])
    refine hno i' hi hxy ?_
    rw [hj, ← hv, e]
  cases hp : posOf xs y with
  | none =>
    simp only [Option.map_none, Option.toList_none]
    unfold hits
    rw [List.filterMap_eq_nil_iff]
    intro j _
    rw [Option.map_eq_none_iff]
    cases hl : lookup (maps j) (buf q j) with
    | none => rfl
    | some i => exact absurd (List.mem_of_getElem? (hsome j i hl).1) (posOf_none hp)
  | some i =>
    have hi := posOf_some hp
    have hil := (List.getElem?_eq_some_iff.mp hi).1
    have hy : xs.getD i 0 = y := by rw [List.getD_eq_getElem?_getD, hi]; rfl
    obtain ⟨a1, a2, a3⟩ := h1 i hil
    have hl0 : lookup (maps (hsh i)) (buf q (hsh i)) = some i := by
      have hmem : (buf q (hsh i), i) ∈ maps (hsh i) := by
        refine (h2 _ _ _).2 ⟨hil, rfl, ?_⟩
        rw [hbuf _ a1, ← hy, a3]
      cases hl : lookup (maps (hsh i)) (buf q (hsh i)) with
      | none =>
        unfold lookup at hl
        rw [Option.map_eq_none_iff, List.find?_eq_none] at hl
        exact absurd (by simp) (hl _ hmem)
      | some i' =>
        have := (posOf_iff hnd).mpr (hsome _ _ hl).1
        rw [hp, Option.some.injEq] at this
        rw [this]
    unfold hits
    rw [filterMap_range_single 3 (hsh i) (i, if 1 < cnt (perm q) then cnt (perm q) else 0) _ a1 (by rw [hl0]; rfl)]
    · rfl
    · intro j hj hjne
      rw [Option.map_eq_none_iff]
      cases hl : lookup (maps j) (buf q j) with
      | none => rfl
      | some i' =>
        obtain ⟨hi', h4⟩ := hsome j i' hl
        have := (posOf_iff hnd).mpr hi'
        rw [hp, Option.some.injEq] at this
        subst this
        exact absurd h4.symm hjne

/-! ### Values and points -/

theorem encOf_point {nb m size : Nat} (ω : Draw nb m size) {b x : Nat} (hb : b < nb) (hx : x < 2 ^ 128) :
    encOf ω b x = bytesOf (ω (.inl (⟨b, hb⟩, ⟨x, hx⟩))) := by
  unfold encOf
  rw [dif_pos ⟨hb, hx⟩]

/-- The value of a slot is drawn at one point: at a bin and the item, or at the slot. -/
theorem slot_point {nb m q h y : Nat} (hnb : 0 < nb) (hq : q < m) (hh : h < 3) (hy : y < 2 ^ 128) : ∃ p : Point nb m,
    (∀ size (ω : Draw nb m size), (match slots nb y h with | some b => encOf ω b y | none => fillOf ω q h) = bytesOf (ω p)) ∧
      ((∃ b, p = .inl (b, ⟨y, hy⟩)) ∨ p = .inr (⟨q, hq⟩, ⟨h, hh⟩)) := by
  cases hs : slots nb y h with
  | none =>
    refine ⟨.inr (⟨q, hq⟩, ⟨h, hh⟩), fun size ω => ?_, Or.inr rfl⟩
    simp only
    unfold fillOf
    rw [dif_pos ⟨hq, hh⟩]
  | some b =>
    have hb := slots_bound nb y h b hnb hs
    exact ⟨.inl (⟨b, hb⟩, ⟨y, hy⟩), fun size ω => encOf_point ω hb hy, Or.inl ⟨_, rfl⟩⟩

/-- What is compared: for each position of the sender and each item of the receiver one pair of points.  A run is wrong only if a
pair of different items takes one value, and if there are no common items it is wrong whenever a pair does. -/
theorem pairs (nbOf : Nat → Nat) (batch : Nat) (xs : List Nat) (ys : List (Nat × Nat)) (step : Nat) (perm : Nat → Nat) (t : Table)
    (hxs : xs.Nodup) (hys : (ys.map Prod.fst).Nodup) (hx : xs.length ≤ 2 ^ 56) (hy : ys ≠ []) (hb : 0 < batch)
    (hnb : 0 < nbOf xs.length) (ht : insertAll ⟨xs.length, 0, 3, nbOf xs.length, 128⟩ [xs] = .ok t)
    (hperm : ((List.range ys.length).map perm).Perm (List.range ys.length))
    (h128 : ∀ x ∈ xs ++ ys.map Prod.fst, x < 2 ^ 128) :
    ∃ e : Fin xs.length → Fin ys.length → Point (nbOf xs.length) ys.length × Point (nbOf xs.length) ys.length,
      (∀ (i : Fin xs.length) (q : Fin ys.length), xs.getD i 0 ≠ (ys.getD (perm q) (0, 0)).1 → (e i q).1 ≠ (e i q).2) ∧
      (∀ i q, ∃ b h, (e i q).2 = .inl (b, ⟨xs.getD i 0, h⟩)) ∧
      (∀ i q, (∃ b h, (e i q).1 = .inl (b, ⟨(ys.getD (perm q) (0, 0)).1, h⟩)) ∨ ∃ h, (e i q).1 = .inr (q, h)) ∧
      ∀ (size : Nat) (ω : Draw (nbOf xs.length) ys.length size) (rs : List Nat),
        ((∀ (i : Fin xs.length) (q : Fin ys.length), xs.getD i 0 ≠ (ys.getD (perm q) (0, 0)).1 → ω (e i q).1 ≠ ω (e i q).2) →
          ∃ w, recv (drawn nbOf batch _ _ size ω) xs (send (drawn nbOf batch _ _ size ω) ys xs.length step perm (fillOf ω) rs) =
            some w ∧ ExactIndex (xs.map (fun x => (x, 0))) ys w) ∧
        ((∃ i q, ω (e i q).1 = ω (e i q).2) →
          ∃ w, recv (drawn nbOf batch _ _ size ω) xs (send (drawn nbOf batch _ _ size ω) ys xs.length step perm (fillOf ω) rs) =
            some w ∧ w ≠ []) := by
  obtain ⟨hp1, hp2, hp3⟩ := perm_range_facts hperm
  obtain ⟨bin, hsh, h1, h2⟩ := places nbOf batch xs t hx ht
  have hxlt : ∀ i : Fin xs.length, xs.getD i 0 < 2 ^ 128 := fun i => by
    rw [List.getD_eq_getElem?_getD, List.getElem?_eq_getElem i.2]
    exact h128 _ (List.mem_append_left _ (List.getElem_mem _))
  have hylt : ∀ q : Fin ys.length, (ys.getD (perm q) (0, 0)).1 < 2 ^ 128 := fun q => by
    rw [List.getD_eq_getElem?_getD, List.getElem?_eq_getElem (hp1 q q.2)]
    exact h128 _ (List.mem_append_right _ (List.mem_map_of_mem (List.getElem_mem _)))
  have hsp : ∀ (i : Fin xs.length) (q : Fin ys.length), _ := fun i q =>
    slot_point (m := ys.length) (nb := nbOf xs.length) hnb q.2 (h1 i i.2).1 (hylt q)
  choose sp hs1 hs2 using hsp
  refine ⟨fun i q => (sp i q, .inl (⟨bin i, (h1 i i.2).2.1⟩, ⟨xs.getD i 0, hxlt i⟩)), ?_, fun i q => ⟨_, _, rfl⟩, ?_, ?_⟩
  · intro i q hne heq
    simp only at heq
    rcases hs2 i q with ⟨b, h⟩ | h
    · rw [h] at heq
      simp only [Sum.inl.injEq, Prod.mk.injEq, Fin.mk.injEq] at heq
      exact hne heq.2.symm
    · rw [h] at heq
      cases heq
  · intro i q
    rcases hs2 i q with ⟨b, h⟩ | h
    · exact Or.inl ⟨b, hylt q, h⟩
    · exact Or.inr ⟨_, h⟩
  · intro size ω rs
    have hrecv := recv_hits (drawn nbOf batch _ _ size ω) xs ys step perm (fillOf ω) rs t (List.length_pos_iff.mpr hy) hb hnb ht
      hperm (fun b x => encOf_length ω b x) (fun pos h _ _ => fillOf_length ω pos h)
    have hbuf := fun pos h hpos hh => (encodings_buf (drawn nbOf batch _ _ size ω) (fun i => (ys.getD i (0, 0)).1) perm ys.length
      (nbOf xs.length) step (fillOf ω) rs hnb hp2 pos h hpos hh).1
    have hval : ∀ (i : Fin xs.length) (q : Fin ys.length),
        (encodings (drawn nbOf batch _ _ size ω) (fun i => (ys.getD i (0, 0)).1) perm ys.length (nbOf xs.length) step (fillOf ω)
          rs).buf q (hsh i) = bytesOf (ω (sp i q)) := fun i q => by
      rw [hbuf q (hsh i) q.2 (h1 i i.2).1]
      exact hs1 i q size ω
    constructor
    · intro hno
      refine ⟨_, hrecv, ?_⟩
      rw [lines_of_hits xs ys perm _ _ fun q hq => ?_]
      · exact lines_exact xs ys perm hxs hys hperm
      · refine hits_places (F := encOf ω) hxs h1 (h2 size (encOf ω)) (fun h hh => hbuf q h hq hh) ?_
        intro i hi hne heq
        refine hno ⟨i, hi⟩ ⟨q, hq⟩ hne (bytesOf_inj ?_)
        rw [← hval ⟨i, hi⟩ ⟨q, hq⟩, ← encOf_point ω (h1 i hi).2.1 (hxlt ⟨i, hi⟩)]
        exact heq
    · rintro ⟨i, q, heq⟩
      refine ⟨_, hrecv, fun hnil => ?_⟩
      rw [List.map_eq_nil_iff, List.flatMap_eq_nil_iff] at hnil
      have hq := hnil q (List.mem_range.2 q.2)
      unfold hits at hq
      rw [List.filterMap_eq_nil_iff] at hq
      have hj := hq (hsh i) (List.mem_range.2 (h1 i i.2).1)
      rw [Option.map_eq_none_iff] at hj
      unfold lookup at hj
      rw [Option.map_eq_none_iff, List.find?_eq_none] at hj
      refine hj (encOf ω (bin i) (xs.getD i 0), i) ((h2 size (encOf ω) _ _ _).2 ⟨i.2, rfl, rfl⟩) ?_
      have hv : (encodings (drawn nbOf batch _ _ size ω) (fun i => (ys.getD i (0, 0)).1) perm ys.length (nbOf xs.length) step
          (fillOf ω) rs).buf q (hsh i) = encOf ω (bin i) (xs.getD i 0) := by
        rw [hval i q, encOf_point ω (h1 i i.2).2.1 (hxlt i)]
        exact congrArg bytesOf heq
      exact decide_eq_true hv.symm

end Psi.Kkrt
