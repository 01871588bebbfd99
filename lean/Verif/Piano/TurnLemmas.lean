import Verif.Piano.OfflineLemmas

/-!
# Piano PIR: one query
-/

namespace Psi.Piano

open Psi.Spiral (Res mapRes w64 w32)

theorem bind_ok {α β : Type} (a : α) (f : α → Res β) : (Res.ok a).bind f = f a := rfl

section Turn

variable {p : Params} {prf : Nat → Nat → Nat} {rnd : Nat → Nat → Nat} {db : List Nat}

/-- Stands for a set that is not there. -/
abbrev noSet : PSet := ⟨0, [], 0, false⟩

/-! ### Sets -/

/-- The element of a set in a chunk. -/
def elem (p : Params) (prf : Nat → Nat → Nat) (s : PSet) (c : Nat) : Nat :=
  if s.programmed = true ∧ s.point / p.cs = c then s.point else c * p.cs + offset p prf s.tag c

theorem elementsOf_length (s : PSet) : (elementsOf p prf s).length = p.ss := by
  rw [elementsOf]
  split_ifs <;> simp [expandSet]

theorem elementsOf_get {s : PSet} {c : Nat} (hc : c < p.ss) : (elementsOf p prf s).getD c 0 = elem p prf s c := by
  have hlen := elementsOf_length (p := p) (prf := prf) s
  rw [List.getD_eq_getElem _ _ (by omega)]
  unfold elementsOf elem
  by_cases hp : s.programmed = true
  · simp only [hp, if_true, true_and]
    rw [List.getElem_set]
    simp [expandSet]
  · simp [hp, expandSet]

theorem elem_lt {s : PSet} (hs : s.programmed = true → s.point < p.cs * p.ss) {c : Nat} (hc : c < p.ss) :
    elem p prf s c < p.cs * p.ss := by
  rw [elem]
  split_ifs with h
  · exact hs h.1
  · exact place_lt hc (offset_lt p prf _ _)

theorem matchSet_elem {s : PSet} {x : Nat} (h : matchSet p prf x s = true) : elem p prf s (x / p.cs) = x := by
  rw [matchSet, Bool.and_eq_true, Bool.not_eq_true', beq_iff_eq] at h
  rw [elem, if_neg]
  · rw [← h.2, Nat.mul_comm]
    exact Nat.div_add_mod x p.cs
  · rintro ⟨h1, h2⟩
    rw [h1, h2, Bool.true_and, beq_self_eq_true] at h
    exact absurd h.1 (by simp)

theorem chunk_lt {x : Nat} (hx : x < p.cs * p.ss) : x / p.cs < p.ss := Nat.div_lt_of_lt_mul hx

/-- A set with its parity. -/
structure SetOk (p : Params) (prf : Nat → Nat → Nat) (db : List Nat) (s : PSet) : Prop where
  parity : s.parity = X p.size p.ss fun c => slice p.size db (elem p prf s c)
  point : s.programmed = true → s.point < p.cs * p.ss

/-! ### The server -/

theorem foldl_getD {α : Type} (f : α → Nat → α) (a : α) (l : List Nat) :
    l.foldl f a = (List.range l.length).foldl (fun a c => f a (l.getD c 0)) a := by
  have : l = (List.range l.length).map fun c => l.getD c 0 := by
    apply List.ext_getElem
    · simp
    · intro i h1 h2
      rw [List.getElem_map, List.getElem_range, List.getD_eq_getElem _ _ h1]
  conv_lhs => rw [this]
  rw [List.foldl_map]

theorem reply_eq {set : List Nat} (h : set.length = p.ss) (hs : ∀ c < p.ss, set.getD c 0 < p.cs * p.ss) :
    reply p db set = X p.size p.ss fun c => slice p.size db (set.getD c 0) := by
  rw [reply, foldl_getD, h]
  exact X_congr (f := fun c => dbAccess p db (set.getD c 0)) fun c hc => by
    rw [dbAccess, if_pos (lt_of_lt_of_le (hs c hc) (le_max_right _ _))]

/-! ### The client between queries -/

/-- The client before a query. -/
structure Online (p : Params) (prf : Nat → Nat → Nat) (rnd : Nat → Nat → Nat) (db : List Nat) (cl : Client) : Prop where
  plen : cl.primary.length = p.m1
  sets : ∀ j < p.m1, SetOk p prf db (cl.primary.getD j noSet)
  backup : cl.backup = backupAt p prf db p.ss
  same : cl.bconsumed = cl.rconsumed
  rlen : cl.rconsumed.length = p.ss
  rle : ∀ c < p.ss, cl.rconsumed.getD c 0 ≤ p.m2
  indices : ∀ c < p.ss, cl.indices.getD c [] = (List.range p.m2).map fun k => replacement p rnd c k
  values : ∀ c < p.ss, cl.values.getD c [] = (List.range p.m2).map fun k => slice p.size db (replacement p rnd c k)
  cache : ∀ x v, look cl.cache x = some v → v = slice p.size db x
  mask : cl.mask = false
  missSome : ∀ x v, look cl.miss x = some v → x / p.cs < p.ss ∧ ¬ HitAtStart p prf x ∧ v = slice p.size db x
  missNone : ∀ x, x / p.cs < p.ss → ¬ HitAtStart p prf x → look cl.miss x = some (slice p.size db x)

theorem After.online {cl : Client} (h : After p prf rnd db p.ss cl) : Online p prf rnd db cl where
  plen := by simp [h.primary, primaryAt]
  sets := by
    intro j hj
    rw [h.primary, List.getD_eq_getElem _ _ (by simpa [primaryAt] using hj)]
    simp only [primaryAt, List.getElem_map, List.getElem_range]
    constructor
    · simp only [elem]
      simp
    · simp
  backup := h.backup
  same := by rw [h.bcons, h.rcons]
  rlen := by simp [h.rcons]
  rle := by
    intro c hc
    rw [h.rcons, List.getD_eq_getElem _ _ (by simpa using hc), List.getElem_replicate]
    exact Nat.zero_le _
  indices := h.indices
  values := h.values
  cache := by intro x v hv; simp [h.cache, look] at hv
  mask := h.mask
  missSome := h.missSome
  missNone := h.missNone

/-- The client after a query that was masked. -/
def maskNext (cl : Client) (x : Nat) (cache : List (Nat × Entry)) : Client :=
  { cl with index := x, mask := false, cache := cache }

/-- The set that takes the place of the one that was used. -/
def newSet (p : Params) (prf : Nat → Nat → Nat) (db : List Nat) (x k : Nat) : PSet :=
  ⟨w32 (p.m1 + (x / p.cs * p.m2 + k)), X p.size p.ss (fun c => slice p.size db
    (if c = x / p.cs then x else c * p.cs + offset p prf (w32 (p.m1 + (x / p.cs * p.m2 + k))) c)), x, true⟩

/-- The client after a query that was answered by set `h`. -/
def hitNext (p : Params) (prf : Nat → Nat → Nat) (db : List Nat) (cl : Client) (x h : Nat) : Client :=
  { cl with
    index := x
    hit := h
    rconsumed := cl.rconsumed.set (x / p.cs) (cl.rconsumed.getD (x / p.cs) 0 + 1)
    bconsumed := cl.bconsumed.set (x / p.cs) (cl.bconsumed.getD (x / p.cs) 0 + 1)
    cache := (x, slice p.size db x) :: cl.cache
    primary := cl.primary.set h (newSet p prf db x (cl.rconsumed.getD (x / p.cs) 0)) }

theorem Online.masked {cl : Client} (ho : Online p prf rnd db cl) (x : Nat) {cache : List (Nat × Entry)}
    (hc : ∀ x v, look cache x = some v → v = slice p.size db x) : Online p prf rnd db (maskNext cl x cache) :=
  ⟨ho.plen, ho.sets, ho.backup, ho.same, ho.rlen, ho.rle, ho.indices, ho.values, hc, rfl, ho.missSome, ho.missNone⟩

theorem newSet_ok {x k : Nat} (hx : x < p.cs * p.ss) : SetOk p prf db (newSet p prf db x k) where
  parity := by
    apply X_congr
    intro c _
    rw [newSet, elem]
    by_cases h : c = x / p.cs
    · rw [if_pos h, if_pos ⟨rfl, h.symm⟩]
    · rw [if_neg h, if_neg (fun e => h e.2.symm)]
  point := fun _ => hx

theorem getD_set {α : Type} (l : List α) (j i : Nat) (a d : α) (hj : j < l.length) :
    (l.set j a).getD i d = if i = j then a else l.getD i d := by
  by_cases hi : i < l.length
  · rw [List.getD_eq_getElem _ _ (by simpa using hi), List.getElem_set, List.getD_eq_getElem _ _ hi]
    by_cases h : i = j
    · rw [if_pos h.symm, if_pos h]
    · rw [if_neg (Ne.symm h), if_neg h]
  · rw [List.getD_eq_default _ _ (by simpa using hi), List.getD_eq_default _ _ (by omega), if_neg (by omega)]

theorem Online.answered {cl : Client} (ho : Online p prf rnd db cl) {x h : Nat} (hx : x < p.cs * p.ss) (hh : h < p.m1)
    (hr : cl.rconsumed.getD (x / p.cs) 0 < p.m2) : Online p prf rnd db (hitNext p prf db cl x h) where
  plen := by simp [hitNext, ho.plen]
  sets := by
    intro j hj
    rw [hitNext, getD_set _ _ _ _ _ (by rw [ho.plen]; exact hh)]
    split_ifs
    · exact newSet_ok hx
    · exact ho.sets j hj
  backup := ho.backup
  same := by simp [hitNext, ho.same]
  rlen := by simp [hitNext, ho.rlen]
  rle := by
    intro c hc
    rw [hitNext, getD_set _ _ _ _ _ (by rw [ho.rlen]; exact chunk_lt hx)]
    split_ifs with h
    · omega
    · exact ho.rle c hc
  indices := ho.indices
  values := ho.values
  cache := by
    intro y v hv
    rw [hitNext, look_cons] at hv
    split_ifs at hv with h
    · rw [Option.some_inj] at hv
      rw [← hv, h]
    · exact ho.cache y v hv
  mask := ho.mask
  missSome := ho.missSome
  missNone := ho.missNone

theorem findHit_some {x h : Nat} {l : List PSet} (hf : findHit p prf x l = some h) :
    h < p.m1 ∧ matchSet p prf x (l.getD h noSet) = true := by
  rw [findHit, List.find?_eq_some_iff_append] at hf
  obtain ⟨h1, l1, l2, hl, -⟩ := hf
  refine ⟨?_, h1⟩
  have : h ∈ List.range p.m1 := by rw [hl]; simp
  exact List.mem_range.mp this

/-! ### The five ways a query can go -/

theorem turn_cached {cl : Client} (ho : Online p prf rnd db cl) {μ : Nat → Nat} {x : Nat} {v : Entry}
    (hc : look cl.cache x = some v) :
    turn p prf db μ x cl = .ok (maskNext cl x cl.cache, maskQuery p μ, slice p.size db x) := by
  rw [turn, query, if_pos (by rw [hc]; rfl), bind_ok, recover, if_pos rfl, bind_ok]
  dsimp only
  rw [hc, Option.getD_some, ho.cache x v hc]
  rfl

theorem turn_miss {cl : Client} (ho : Online p prf rnd db cl) {μ : Nat → Nat} {x : Nat} {v : Entry}
    (hc : look cl.cache x = none) (hf : findHit p prf x cl.primary = none) (hm : look cl.miss x = some v) :
    turn p prf db μ x cl = .ok (maskNext cl x ((x, v) :: cl.cache), maskQuery p μ, slice p.size db x) := by
  rw [turn, query, if_neg (by rw [hc]; simp), hf]
  dsimp only
  rw [hm]
  dsimp only
  rw [bind_ok, recover, if_pos rfl, bind_ok]
  dsimp only
  rw [look_cons, if_pos rfl, Option.getD_some, (ho.missSome x v hm).2.2]
  rfl

theorem turn_lost {cl : Client} {μ : Nat → Nat} {x : Nat}
    (hc : look cl.cache x = none) (hf : findHit p prf x cl.primary = none) (hm : look cl.miss x = none) :
    turn p prf db μ x cl = .ok (maskNext cl x cl.cache, maskQuery p μ, zeroEntry p.size) := by
  rw [turn, query, if_neg (by rw [hc]; simp), hf]
  dsimp only
  rw [hm]
  dsimp only
  rw [bind_ok, recover, if_pos rfl, bind_ok]
  dsimp only
  rw [hc]
  rfl

theorem turn_exhausted {cl : Client} {μ : Nat → Nat} {x h : Nat} (hx : x < p.cs * p.ss)
    (hc : look cl.cache x = none) (hf : findHit p prf x cl.primary = some h) (hr : cl.rconsumed.getD (x / p.cs) 0 = p.m2) :
    turn p prf db μ x cl = .ok (maskNext cl x cl.cache, maskQuery p μ, zeroEntry p.size) := by
  have := chunk_lt hx
  rw [turn, query, if_neg (by rw [hc]; simp), hf]
  dsimp only
  rw [if_neg (by omega), if_pos hr, bind_ok, recover, if_pos rfl, bind_ok]
  dsimp only
  rw [hc]
  rfl

/-- The message of a query that is answered by a set. -/
def hitMessage (p : Params) (prf : Nat → Nat → Nat) (rnd : Nat → Nat → Nat) (cl : Client) (x h : Nat) : List Nat :=
  (elementsOf p prf (cl.primary.getD h noSet)).set (x / p.cs) (replacement p rnd (x / p.cs) (cl.rconsumed.getD (x / p.cs) 0))

theorem replacement_lt {c k : Nat} (hc : c < p.ss) : replacement p rnd c k < p.cs * p.ss := by
  rw [replacement, Nat.add_comm]
  exact place_lt hc (Nat.mod_lt _ (cs_pos p))

theorem turn_hit (hdb : db.length = p.cs * p.ss * p.size) {cl : Client} (ho : Online p prf rnd db cl) {μ : Nat → Nat}
    {x h : Nat} (hx : x < p.cs * p.ss) (hc : look cl.cache x = none) (hf : findHit p prf x cl.primary = some h)
    (hr : cl.rconsumed.getD (x / p.cs) 0 < p.m2) :
    turn p prf db μ x cl
      = .ok (hitNext p prf db cl x h, hitMessage p prf rnd cl x h, slice p.size db x) := by
  have hch := chunk_lt hx
  obtain ⟨hh, hmatch⟩ := findHit_some hf
  have hel := matchSet_elem hmatch
  obtain ⟨hpar, hpt⟩ := ho.sets h hh
  set k := cl.rconsumed.getD (x / p.cs) 0 with hk
  set s := cl.primary.getD h noSet with hs
  have hix : (cl.indices.getD (x / p.cs) []).getD k 0 = replacement p rnd (x / p.cs) k := by
    rw [ho.indices _ hch, List.getD_eq_getElem _ _ (by simpa using hr), List.getElem_map, List.getElem_range]
  have hvx : (cl.values.getD (x / p.cs) []).getD k [] = slice p.size db (replacement p rnd (x / p.cs) k) := by
    rw [ho.values _ hch, List.getD_eq_getElem _ _ (by simpa using hr), List.getElem_map, List.getElem_range]
  have hbk : cl.backup.getD (x / p.cs * p.m2 + k) ⟨0, []⟩
      = ⟨w32 (p.m1 + (x / p.cs * p.m2 + k)), X p.size p.ss fun c =>
        if c = x / p.cs then zeroEntry p.size
        else slice p.size db (c * p.cs + offset p prf (w32 (p.m1 + (x / p.cs * p.m2 + k))) c)⟩ := by
    have hlt : x / p.cs * p.m2 + k < p.total := by
      have : (x / p.cs + 1) * p.m2 ≤ p.ss * p.m2 := Nat.mul_le_mul_right _ hch
      rw [Nat.succ_mul] at this
      rw [Params.total, Nat.mul_comm p.m2]
      omega
    have hdiv : (x / p.cs * p.m2 + k) / p.m2 = x / p.cs := by
      rw [Nat.add_comm, Nat.add_mul_div_right _ _ (by omega), Nat.div_eq_of_lt hr, Nat.zero_add]
    rw [ho.backup, List.getD_eq_getElem _ _ (by simpa [backupAt] using hlt)]
    simp only [backupAt, List.getElem_map, List.getElem_range, hdiv]
  -- the message
  have hml : (hitMessage p prf rnd cl x h).length = p.ss := by
    rw [hitMessage, List.length_set, elementsOf_length]
  have hmg : ∀ c < p.ss, (hitMessage p prf rnd cl x h).getD c 0
      = if c = x / p.cs then replacement p rnd (x / p.cs) k else elem p prf s c := by
    intro c hc'
    rw [hitMessage, getD_set _ _ _ _ _ (by rw [elementsOf_length]; exact hch), elementsOf_get hc']
  have hmlt : ∀ c < p.ss, (hitMessage p prf rnd cl x h).getD c 0 < p.cs * p.ss := by
    intro c hc'
    rw [hmg c hc']
    split_ifs
    · exact replacement_lt hch
    · exact elem_lt hpt hc'
  have hrep := reply_eq (db := db) hml hmlt
  have hlenf : ∀ c < p.ss, (slice p.size db (elem p prf s c)).length = p.size := fun c hc' => place_ok hdb (elem_lt hpt hc')
  have hlenr : (slice p.size db (replacement p rnd (x / p.cs) k)).length = p.size := place_ok hdb (replacement_lt hch)
  have hupd : reply p db (hitMessage p prf rnd cl x h)
      = xorE (xorE s.parity (slice p.size db x)) (slice p.size db (replacement p rnd (x / p.cs) k)) := by
    rw [hrep, hpar]
    have := X_update (f := fun c => slice p.size db (elem p prf s c))
      (g := fun c => slice p.size db ((hitMessage p prf rnd cl x h).getD c 0)) (k := x / p.cs) hlenf
      (place_ok hdb (hmlt _ hch)) hch (fun c hc' hne => by rw [hmg c hc', if_neg hne])
    rw [this, hel, hmg _ hch, if_pos rfl]
  have hpl : s.parity.length = p.size := by rw [hpar]; exact X_length hlenf
  have hxl : (slice p.size db x).length = p.size := place_ok hdb hx
  have hv1 : xorChecked s.parity (reply p db (hitMessage p prf rnd cl x h))
      = .ok (xorE (slice p.size db x) (slice p.size db (replacement p rnd (x / p.cs) k))) := by
    rw [hupd, xorChecked, if_pos (by rw [hpl, xorE_length (xorE_length hpl hxl) hlenr]), ← xorE_assoc, ← xorE_assoc,
      xorE_self, hpl, xorE_comm (zeroEntry p.size)]
    have := xorE_zero (slice p.size db x)
    rw [hxl] at this
    rw [this]
  have hv : xorChecked (xorE (slice p.size db x) (slice p.size db (replacement p rnd (x / p.cs) k)))
      (slice p.size db (replacement p rnd (x / p.cs) k)) = .ok (slice p.size db x) := by
    rw [xorChecked, if_pos (by rw [xorE_length hxl hlenr, hlenr]), xorE_cancel hxl hlenr]
  have hlenb : ∀ c < p.ss, (if c = x / p.cs then zeroEntry p.size
        else slice p.size db (c * p.cs + offset p prf (w32 (p.m1 + (x / p.cs * p.m2 + k))) c)).length = p.size := by
    intro c hc'
    split_ifs
    · exact zeroEntry_length _
    · exact place_ok hdb (place_lt hc' (offset_lt p prf _ _))
  have hw : xorChecked (slice p.size db x) (X p.size p.ss fun c => if c = x / p.cs then zeroEntry p.size
        else slice p.size db (c * p.cs + offset p prf (w32 (p.m1 + (x / p.cs * p.m2 + k))) c))
      = .ok (newSet p prf db x k).parity := by
    rw [xorChecked, if_pos (by rw [hxl, X_length hlenb])]
    congr 1
    have := X_update (s := p.size) (k := x / p.cs) (f := fun c => if c = x / p.cs then zeroEntry p.size
        else slice p.size db (c * p.cs + offset p prf (w32 (p.m1 + (x / p.cs * p.m2 + k))) c))
      (g := fun c => slice p.size db
        (if c = x / p.cs then x else c * p.cs + offset p prf (w32 (p.m1 + (x / p.cs * p.m2 + k))) c)) hlenb
      (by simp only [if_true]; exact hxl) hch (fun c hc' hne => by simp only [if_neg hne])
    rw [newSet]
    dsimp only
    rw [this]
    simp only [if_true]
    rw [xorE_comm]
    congr 1
    have h0 := xorE_zero (X p.size p.ss fun c => if c = x / p.cs then zeroEntry p.size
        else slice p.size db (c * p.cs + offset p prf (w32 (p.m1 + (x / p.cs * p.m2 + k))) c))
    rw [X_length hlenb] at h0
    exact h0.symm
  have hb : cl.bconsumed.getD (x / p.cs) 0 = k := by rw [ho.same]
  have hq : query p prf μ x cl = .ok ({ cl with index := x, hit := h }, hitMessage p prf rnd cl x h) := by
    rw [query, if_neg (by rw [hc]; simp), hf]
    dsimp only
    rw [if_neg (by omega), if_neg (by omega), ← hk, hix]
    rfl
  rw [turn, hq, bind_ok, recover, if_neg (by simp [ho.mask])]
  dsimp only
  rw [← hs, hv1, bind_ok, ← hk, hvx, hv, bind_ok, hb, if_neg (by omega), hbk]
  dsimp only
  rw [hw, bind_ok, bind_ok]
  dsimp only
  rw [hitNext, ← hk, hb]
  rfl

end Turn

end Psi.Piano
