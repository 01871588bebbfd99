import Verif.Cryptor.Spec

/-!
# C110: masks do not depend on the processor, and which curve is used
-/

namespace Psi.Cryptor

open Psi.Spiral (Res mapRes)

variable {F S : Type}

/-! ## Normal forms -/

theorem check_bind {α β : Type} (o : Option α) (f : α → Option β) : (check o).bind (fun a => check (f a)) = check (o.bind f) := by
  cases o <;> rfl

theorem mapM_length {α β : Type} {f : α → Option β} {l : List α} {m : List β} (h : l.mapM f = some m) : m.length = l.length :=
  ((mapM_eq_some f l m).1 h).length_eq.symm

/-- Three loops one after the other. -/
theorem three_eq {α P Q R : Type} (f : α → Option P) (g : P → Option Q) (h : Q → Option R) (l : List α) (dp : P)
    (second : List P → Res (List Q)) (dr : R) (c0 c2 : List (Nat × Nat)) (h0 : Cover l.length c0) (h2 : Cover l.length c2)
    (hs : ∀ ps : List P, ps.length = l.length → second ps = check (ps.mapM g)) :
    ((each (fun a => check (f a)) dp l c0).bind fun ps => (second ps).bind fun qs => each (fun q => check (h q)) dr qs c2)
      = check (l.mapM fun a => ((f a).bind g).bind h) := by
  rw [each_eq f dp l c0 h0]
  cases hf : l.mapM f with
  | none =>
    have : l.mapM (fun a => ((f a).bind g).bind h) = none := by
      rw [mapM_eq_none] at hf ⊢
      obtain ⟨a, ha, hfa⟩ := hf
      exact ⟨a, ha, by simp [hfa]⟩
    rw [this]
    rfl
  | some ps =>
    have hl := mapM_length hf
    have e1 : l.mapM (fun a => (f a).bind g) = ps.mapM g := by rw [← mapM_bind, hf]; rfl
    have e2 : l.mapM (fun a => ((f a).bind g).bind h) = (ps.mapM g).bind fun qs => qs.mapM h := by rw [← mapM_bind, e1]
    rw [e2]
    show (second ps).bind _ = _
    rw [hs ps hl]
    cases hg : ps.mapM g with
    | none => rfl
    | some qs =>
      exact each_eq h dr qs c2 (by rw [mapM_length hg, hl]; exact h2)

/-- What a cryptor does to an item. -/
def kindItem (L : Prims F S) (k : Kind) (key a : Bytes) : Option Bytes :=
  match k with
  | .ipp | .sodium => L.x.mul key (L.sha a)
  | .ippElligator | .sodiumElligator => (L.elligator a).bind fun p => L.x.mul key p
  | .fourq => (L.fourqHash a).bind fun p => (L.f.mul key p).map L.f.ser
  | .openssl _ => (L.smHash a).bind fun p => (L.s.mul key p).map L.s.ser

/-- What a cryptor does to a message. -/
def kindWire (L : Prims F S) (k : Kind) (key m : Bytes) : Option Bytes :=
  match k with
  | .ipp | .sodium | .ippElligator | .sodiumElligator => if m.length = 32 then L.x.mul key m else none
  | .fourq => (L.f.de m).bind fun p => (L.f.mul key p).map L.f.ser
  | .openssl _ => (L.s.de m).bind fun p => (L.s.mul key p).map L.s.ser

theorem maskItems_eq (L : Prims F S) (hL : Laws L) (k : Kind) (key : Bytes) (items : List Bytes) (cs : Fin 3 → List (Nat × Nat))
    (f0 : F) (s0 : S) (hc : ∀ i, Cover items.length (cs i)) :
    maskItems L k key items cs f0 s0 = check (items.mapM (kindItem L k key)) := by
  have hlane : L.lane key = L.x.mul key := funext fun p => hL.lane key p
  cases k with
  | ipp =>
    have h := three_eq (fun a => some (L.sha a)) (L.lane key) (fun b => some b) items (List.replicate 32 0)
      (fun ps => ippMask L key ps (cs 1)) [] (cs 0) (cs 2) (hc 0) (hc 2)
      (fun ps hp => ippMask_eq L key ps (cs 1) (by rw [hp]; exact hc 1))
    refine Eq.trans h ?_
    congr 2
    funext a
    simp [kindItem, hlane]
  | ippElligator =>
    have h := three_eq L.elligator (L.lane key) (fun b => some b) items (List.replicate 32 0)
      (fun ps => ippMask L key ps (cs 1)) [] (cs 0) (cs 2) (hc 0) (hc 2)
      (fun ps hp => ippMask_eq L key ps (cs 1) (by rw [hp]; exact hc 1))
    refine Eq.trans h ?_
    congr 2
    funext a
    simp [kindItem, hlane]
  | sodium =>
    have h := three_eq (fun a => some (L.sha a)) (L.x.mul key) (fun b => some (L.x.ser b)) items (List.replicate 32 0)
      (fun ps => each (fun p => check (L.x.mul key p)) (List.replicate 32 0) ps (cs 1)) [] (cs 0) (cs 2) (hc 0) (hc 2)
      (fun ps hp => each_eq _ _ ps (cs 1) (by rw [hp]; exact hc 1))
    refine Eq.trans h ?_
    congr 2
    funext a
    simp [kindItem, hL.ser]
  | sodiumElligator =>
    have h := three_eq L.elligator (L.x.mul key) (fun b => some (L.x.ser b)) items (List.replicate 32 0)
      (fun ps => each (fun p => check (L.x.mul key p)) (List.replicate 32 0) ps (cs 1)) [] (cs 0) (cs 2) (hc 0) (hc 2)
      (fun ps hp => each_eq _ _ ps (cs 1) (by rw [hp]; exact hc 1))
    refine Eq.trans h ?_
    congr 2
    funext a
    simp [kindItem, hL.ser]
  | fourq =>
    have h := three_eq L.fourqHash (L.f.mul key) (fun b => some (L.f.ser b)) items f0
      (fun ps => each (fun p => check (L.f.mul key p)) f0 ps (cs 1)) [] (cs 0) (cs 2) (hc 0) (hc 2)
      (fun ps hp => each_eq _ _ ps (cs 1) (by rw [hp]; exact hc 1))
    refine Eq.trans h ?_
    congr 2
    funext a
    simp only [kindItem, Option.bind_assoc]
    congr 1
    funext p
    cases L.f.mul key p <;> rfl
  | openssl t =>
    have h := three_eq L.smHash (L.s.mul key) (fun b => some (L.s.ser b)) items s0
      (fun ps => each (fun p => check (L.s.mul key p)) s0 ps (cs 1)) [] (cs 0) (cs 2) (hc 0) (hc 2)
      (fun ps hp => each_eq _ _ ps (cs 1) (by rw [hp]; exact hc 1))
    refine Eq.trans h ?_
    congr 2
    funext a
    simp only [kindItem, Option.bind_assoc]
    congr 1
    funext p
    cases L.s.mul key p <;> rfl

theorem ifCheck (b : Bytes) : (if b.length = 32 then Res.ok b else .throws) = check (if b.length = 32 then some b else none) := by
  split <;> rfl

theorem maskWire_eq (L : Prims F S) (hL : Laws L) (k : Kind) (key : Bytes) (msgs : List Bytes) (cs : Fin 3 → List (Nat × Nat))
    (f0 : F) (s0 : S) (hc : ∀ i, Cover msgs.length (cs i)) :
    maskWire L k key msgs cs f0 s0 = check (msgs.mapM (kindWire L k key)) := by
  have hlane : L.lane key = L.x.mul key := funext fun p => hL.lane key p
  have hde : L.x.de = fun b => if b.length = 32 then some b else none := funext hL.de
  have hipp : ((each (fun b => if b.length = 32 then Res.ok b else .throws) (List.replicate 32 0) msgs (cs 0)).bind fun ps =>
      (ippMask L key ps (cs 1)).bind fun qs => each (fun b => .ok b) [] qs (cs 2))
      = check (msgs.mapM fun m => if m.length = 32 then L.x.mul key m else none) := by
    simp only [ifCheck]
    have h := three_eq (fun b => if b.length = 32 then some b else none) (L.lane key) (fun b => some b) msgs (List.replicate 32 0)
      (fun ps => ippMask L key ps (cs 1)) [] (cs 0) (cs 2) (hc 0) (hc 2)
      (fun ps hp => ippMask_eq L key ps (cs 1) (by rw [hp]; exact hc 1))
    refine Eq.trans h ?_
    congr 2
    funext a
    rw [hlane]
    split <;> simp
  have hsod : ((each (fun b => check (L.x.de b)) (List.replicate 32 0) msgs (cs 0)).bind fun ps =>
      (each (fun p => check (L.x.mul key p)) (List.replicate 32 0) ps (cs 1)).bind fun qs => each (fun p => .ok (L.x.ser p)) [] qs (cs 2))
      = check (msgs.mapM fun m => if m.length = 32 then L.x.mul key m else none) := by
    have h := three_eq L.x.de (L.x.mul key) (fun b => some (L.x.ser b)) msgs (List.replicate 32 0)
      (fun ps => each (fun p => check (L.x.mul key p)) (List.replicate 32 0) ps (cs 1)) [] (cs 0) (cs 2) (hc 0) (hc 2)
      (fun ps hp => each_eq _ _ ps (cs 1) (by rw [hp]; exact hc 1))
    refine Eq.trans h ?_
    congr 2
    funext a
    rw [hde]
    dsimp only
    split <;> simp [hL.ser]
  cases k with
  | ipp => exact hipp
  | ippElligator => exact hipp
  | sodium => exact hsod
  | sodiumElligator => exact hsod
  | fourq =>
    have h := three_eq L.f.de (L.f.mul key) (fun b => some (L.f.ser b)) msgs f0
      (fun ps => each (fun p => check (L.f.mul key p)) f0 ps (cs 1)) [] (cs 0) (cs 2) (hc 0) (hc 2)
      (fun ps hp => each_eq _ _ ps (cs 1) (by rw [hp]; exact hc 1))
    refine Eq.trans h ?_
    congr 2
    funext a
    simp only [kindWire, Option.bind_assoc]
    congr 1
    funext p
    cases L.f.mul key p <;> rfl
  | openssl t =>
    have h := three_eq L.s.de (L.s.mul key) (fun b => some (L.s.ser b)) msgs s0
      (fun ps => each (fun p => check (L.s.mul key p)) s0 ps (cs 1)) [] (cs 0) (cs 2) (hc 0) (hc 2)
      (fun ps hp => each_eq _ _ ps (cs 1) (by rw [hp]; exact hc 1))
    refine Eq.trans h ?_
    congr 2
    funext a
    simp only [kindWire, Option.bind_assoc]
    congr 1
    funext p
    cases L.s.mul key p <;> rfl

theorem check_ok {α : Type} (o : Option α) (a : α) : check o = .ok a ↔ o = some a := by cases o <;> simp [check]

theorem check_throws {α : Type} (o : Option α) : check o = .throws ↔ o = none := by cases o <;> simp [check]

/-- Which cryptors a curve can get. -/
theorem create_kinds (c : Cpu) (v : Curve) (k : Kind) (h : createEccCryptor c v = .ok k) :
    (v = .c25519 ∧ (k = .ipp ∨ k = .sodium)) ∨ (v = .elligator2 ∧ (k = .ippElligator ∨ k = .sodiumElligator))
      ∨ (v = .fourq ∧ k = .fourq) ∨ (v = .sm2 ∧ k = .openssl .sm2) ∨ (v = .secp256k1 ∧ k = .openssl .secp256k1) := by
  obtain ⟨x, y, z⟩ := c
  cases v <;> cases x <;> cases y <;> cases z <;>
    simp [createEccCryptor, getIpp, getElligatorIpp, getFourQ] at h <;> subst h <;> simp

theorem kindItem_eq (L : Prims F S) (c : Cpu) (v : Curve) (k : Kind) (h : createEccCryptor c v = .ok k) (hv : v ≠ .secp256k1) :
    kindItem L k = Spec.item L v := by
  funext key a
  rcases create_kinds c v k h with ⟨rfl, rfl | rfl⟩ | ⟨rfl, rfl | rfl⟩ | ⟨rfl, rfl⟩ | ⟨rfl, rfl⟩ | ⟨rfl, rfl⟩ <;> first | rfl | simp at hv

theorem kindWire_eq (L : Prims F S) (c : Cpu) (v : Curve) (k : Kind) (h : createEccCryptor c v = .ok k) (hv : v ≠ .secp256k1) :
    kindWire L k = Spec.wire L v := by
  funext key a
  rcases create_kinds c v k h with ⟨rfl, rfl | rfl⟩ | ⟨rfl, rfl | rfl⟩ | ⟨rfl, rfl⟩ | ⟨rfl, rfl⟩ | ⟨rfl, rfl⟩ <;> first | rfl | simp at hv

/-! ## The properties -/

/-- The list of masked items is that of the configured curve, place by place, on every processor and for every split among the
threads; otherwise some item cannot be masked and the run stops. -/
theorem C110_items_partial (L : Prims F S) (hL : Laws L) (c : Cpu) (v : Curve) (k : Kind) (h : createEccCryptor c v = .ok k)
    (hv : v ≠ .secp256k1) (key : Bytes) (items : List Bytes) (cs : Fin 3 → List (Nat × Nat)) (f0 : F) (s0 : S)
    (hc : ∀ i, Cover items.length (cs i)) :
    (∀ out, maskItems L k key items cs f0 s0 = .ok out ↔ List.Forall₂ (fun a b => Spec.item L v key a = some b) items out)
      ∧ (maskItems L k key items cs f0 s0 = .throws ↔ ∃ a ∈ items, Spec.item L v key a = none) := by
  rw [maskItems_eq L hL k key items cs f0 s0 hc, kindItem_eq L c v k h hv]
  exact ⟨fun out => by rw [check_ok, mapM_eq_some], by rw [check_throws, mapM_eq_none]⟩

/-- The same for the messages of the other party. -/
theorem C110_wire_partial (L : Prims F S) (hL : Laws L) (c : Cpu) (v : Curve) (k : Kind) (h : createEccCryptor c v = .ok k)
    (hv : v ≠ .secp256k1) (key : Bytes) (msgs : List Bytes) (cs : Fin 3 → List (Nat × Nat)) (f0 : F) (s0 : S)
    (hc : ∀ i, Cover msgs.length (cs i)) :
    (∀ out, maskWire L k key msgs cs f0 s0 = .ok out ↔ List.Forall₂ (fun a b => Spec.wire L v key a = some b) msgs out)
      ∧ (maskWire L k key msgs cs f0 s0 = .throws ↔ ∃ a ∈ msgs, Spec.wire L v key a = none) := by
  rw [maskWire_eq L hL k key msgs cs f0 s0 hc, kindWire_eq L c v k h hv]
  exact ⟨fun out => by rw [check_ok, mapM_eq_some], by rw [check_throws, mapM_eq_none]⟩

/-- Two processors and two splits among threads give the same masks, for every curve. -/
theorem C110_any_processor (L : Prims F S) (hL : Laws L) (c1 c2 : Cpu) (v : Curve) (k1 k2 : Kind)
    (h1 : createEccCryptor c1 v = .ok k1) (h2 : createEccCryptor c2 v = .ok k2) (key : Bytes) (l : List Bytes)
    (cs1 cs2 : Fin 3 → List (Nat × Nat)) (f0 f1 : F) (s0 s1 : S) (hc1 : ∀ i, Cover l.length (cs1 i)) (hc2 : ∀ i, Cover l.length (cs2 i)) :
    maskItems L k1 key l cs1 f0 s0 = maskItems L k2 key l cs2 f1 s1
      ∧ maskWire L k1 key l cs1 f0 s0 = maskWire L k2 key l cs2 f1 s1 ∧ k1.curveType = k2.curveType := by
  rw [maskItems_eq L hL k1 key l cs1 f0 s0 hc1, maskItems_eq L hL k2 key l cs2 f1 s1 hc2,
    maskWire_eq L hL k1 key l cs1 f0 s0 hc1, maskWire_eq L hL k2 key l cs2 f1 s1 hc2]
  have e : kindItem L k1 = kindItem L k2 ∧ kindWire L k1 = kindWire L k2 ∧ k1.curveType = k2.curveType := by
    have a := create_kinds c1 v k1 h1
    have b := create_kinds c2 v k2 h2
    cases v <;> simp at a b
    · rcases a with rfl | rfl <;> rcases b with rfl | rfl <;> exact ⟨rfl, rfl, rfl⟩
    · subst a b; exact ⟨rfl, rfl, rfl⟩
    · subst a b; exact ⟨rfl, rfl, rfl⟩
    · subst a b; exact ⟨rfl, rfl, rfl⟩
    · rcases a with rfl | rfl <;> rcases b with rfl | rfl <;> exact ⟨rfl, rfl, rfl⟩
  rw [e.1, e.2.1]
  exact ⟨rfl, rfl, e.2.2⟩

/-- A cryptor is refused only for FourQ on an x86 processor without AVX2, and for an invalid curve. -/
theorem C110_refused (c : Cpu) (v : Curve) :
    (createEccCryptor c v = .throws ↔ v = .invalid ∨ (v = .fourq ∧ c.x86 = true ∧ c.avx2 = false))
      ∧ createEccCryptor c v ≠ .undefined := by
  obtain ⟨x, y, z⟩ := c
  cases v <;> cases x <;> cases y <;> cases z <;> simp [createEccCryptor, getIpp, getElligatorIpp, getFourQ]

/-- A cryptor that needs special instructions is made on a processor that has them: ippcp on x86 with AVX-512 IFMA, and there
always for the two forms of Curve25519; FourQ on x86 with AVX2 or on another platform. -/
theorem C110_instructions (c : Cpu) (v : Curve) (k : Kind) (h : createEccCryptor c v = .ok k) :
    (k = .ipp ∨ k = .ippElligator ↔ (v = .c25519 ∨ v = .elligator2) ∧ c.x86 = true ∧ c.avx512 = true)
      ∧ (k = .fourq → c.x86 = true → c.avx2 = true) := by
  obtain ⟨x, y, z⟩ := c
  cases v <;> cases x <;> cases y <;> cases z <;>
    simp [createEccCryptor, getIpp, getElligatorIpp, getFourQ] at h <;> subst h <;> simp

example := C110_instructions ⟨true, true, false⟩ .c25519 .sodium rfl

example := C110_instructions ⟨true, false, true⟩ .elligator2 .ippElligator rfl

/-- The group is that of the configured curve, except for secp256k1. -/
theorem C110_group_partial (c : Cpu) (v : Curve) (k : Kind) (h : createEccCryptor c v = .ok k) :
    (some k.group = Spec.group v ↔ v ≠ .secp256k1) := by
  rcases create_kinds c v k h with ⟨rfl, rfl | rfl⟩ | ⟨rfl, rfl | rfl⟩ | ⟨rfl, rfl⟩ | ⟨rfl, rfl⟩ | ⟨rfl, rfl⟩ <;>
    simp [Kind.group, Spec.group]

/-- A run configured with secp256k1 computes in the group of SM2: all its masks are those of a run with SM2, while its cryptor calls
itself secp256k1. -/
theorem C110_secp_is_sm2 (L : Prims F S) (c : Cpu) :
    ∃ k k', createEccCryptor c .secp256k1 = .ok k ∧ createEccCryptor c .sm2 = .ok k' ∧ k.curveType = .secp256k1 ∧ k.group = .sm2
      ∧ ∀ key l cs f0 s0, maskItems L k key l cs f0 s0 = maskItems L k' key l cs f0 s0
        ∧ maskWire L k key l cs f0 s0 = maskWire L k' key l cs f0 s0 :=
  ⟨.openssl .secp256k1, .openssl .sm2, rfl, rfl, rfl, rfl, fun _ _ _ _ _ => ⟨rfl, rfl⟩⟩

/-- What the check of the configurations at the start of a run shows: the same target, and the same curve up to the way of hashing
onto Curve25519. -/
theorem C110_check_partial (c1 c2 : Cpu) (v1 v2 : Curve) (k1 k2 : Kind) (t1 t2 : Nat) (h1 : createEccCryptor c1 v1 = .ok k1)
    (h2 : createEccCryptor c2 v2 = .ok k2) :
    checkConfig (t1, k1) (t2, k2) = true ↔ t1 = t2
      ∧ (v1 = v2 ∨ (v1 = .c25519 ∧ v2 = .elligator2) ∨ (v1 = .elligator2 ∧ v2 = .c25519)) := by
  rcases create_kinds c1 v1 k1 h1 with ⟨rfl, rfl | rfl⟩ | ⟨rfl, rfl | rfl⟩ | ⟨rfl, rfl⟩ | ⟨rfl, rfl⟩ | ⟨rfl, rfl⟩ <;>
    rcases create_kinds c2 v2 k2 h2 with ⟨rfl, rfl | rfl⟩ | ⟨rfl, rfl | rfl⟩ | ⟨rfl, rfl⟩ | ⟨rfl, rfl⟩ | ⟨rfl, rfl⟩ <;>
    simp [checkConfig, Kind.curveType]

/-! ## Two parties -/

/-- An item after both masks. -/
def Twice {P : Type} (l : Lib P) (a b : Bytes) (h : Bytes → Option P) (x out : Bytes) : Prop :=
  ∃ p r s, h x = some p ∧ l.mul a p = some r ∧ l.mul b r = some s ∧ out = l.ser s

theorem twice_of {P : Type} (l : Lib P) (same : P → P → Prop) (hl : Spec.Good l same) (a b : Bytes) (h : Bytes → Option P)
    (x m out : Bytes) (h1 : ((h x).bind fun p => (l.mul a p).map l.ser) = some m)
    (h2 : ((l.de m).bind fun p => (l.mul b p).map l.ser) = some out) : Twice l a b h x out := by
  cases hx : h x with
  | none => simp [hx] at h1
  | some p =>
    rw [hx] at h1
    simp only [Option.bind_some, Option.map_eq_some_iff] at h1
    obtain ⟨r, hr, rfl⟩ := h1
    rw [hl.round a p r hr] at h2
    simp only [Option.bind_some, Option.map_eq_some_iff] at h2
    obtain ⟨s, hs, rfl⟩ := h2
    exact ⟨p, r, s, hx, hr, hs, rfl⟩

theorem twice_iff {P : Type} (l : Lib P) (same : P → P → Prop) (hl : Spec.Good l same) (a b : Bytes) (h h' : Bytes → Option P)
    (x y u w : Bytes) (hx : Twice l a b h x u) (hy : Twice l b a h' y w) :
    u = w ↔ ∃ p q, h x = some p ∧ h' y = some q ∧ same p q := by
  obtain ⟨p, r, s, hp, hr, hs, rfl⟩ := hx
  obtain ⟨q, r', s', hq, hr', hs', rfl⟩ := hy
  have e := hl.comm b a q
  rw [hr'] at e
  simp only [Option.bind_some, hs'] at e
  obtain ⟨t, ht, hts⟩ := Option.bind_eq_some_iff.1 e.symm
  constructor
  · intro he
    have hss : s = s' := by
      have h1 := hl.round b r s hs
      rw [he, hl.round a r' s' hs'] at h1
      exact (Option.some.inj h1).symm
    have h2 := (hl.same b r t s s' hs hts).1 hss
    have h3 := (hl.canon a a p q r t hr ht).1 h2
    exact ⟨p, q, hp, hq, (hl.same a p q r t hr ht).1 h3⟩
  · rintro ⟨p', q', hp', hq', hsame⟩
    rw [hp] at hp'
    rw [hq] at hq'
    obtain rfl := Option.some.inj hp'
    obtain rfl := Option.some.inj hq'
    have h3 : r = t := (hl.same a _ _ r t hr ht).2 hsame
    subst h3
    rw [hs] at hts
    rw [Option.some.inj hts]

theorem forall2_get {α β : Type} {R : α → β → Prop} {l : List α} {m : List β} (h : List.Forall₂ R l m) {i : Nat} {a : α} {b : β}
    (ha : l[i]? = some a) (hb : m[i]? = some b) : R a b := by
  obtain ⟨hi, rfl⟩ := List.getElem?_eq_some_iff.1 ha
  obtain ⟨hj, rfl⟩ := List.getElem?_eq_some_iff.1 hb
  have := List.Forall₂.get h hi hj
  simpa using this

/-- What is known of an item that both parties have masked. -/
theorem twice_kind (L : Prims F S) (hL : Laws L) {k k' : Kind} {a b : Bytes} {xs m out : List Bytes} {cs ds : Fin 3 → List (Nat × Nat)}
    {f0 f1 : F} {s0 s1 : S} (hc : ∀ i, Cover xs.length (cs i)) (hd : ∀ i, Cover m.length (ds i))
    (h1 : maskItems L k a xs cs f0 s0 = .ok m) (h2 : maskWire L k' b m ds f1 s1 = .ok out) {i : Nat} {x u : Bytes}
    (hx : xs[i]? = some x) (hu : out[i]? = some u) : ∃ w, kindItem L k a x = some w ∧ kindWire L k' b w = some u := by
  rw [maskItems_eq L hL k a xs cs f0 s0 hc, check_ok, mapM_eq_some] at h1
  rw [maskWire_eq L hL k' b m ds f1 s1 hd, check_ok, mapM_eq_some] at h2
  have l2 := h2.length_eq
  obtain ⟨hi, -⟩ := List.getElem?_eq_some_iff.1 hu
  have hm : m[i]? = some (m[i]'(by omega)) := List.getElem?_eq_getElem _
  exact ⟨_, forall2_get h1 hx hm, forall2_get h2 hm hu⟩

theorem x_twice (L : Prims F S) (hL : Laws L) {sx : Bytes → Bytes → Prop} (hx : Spec.Good L.x sx) {a b : Bytes} (h : Bytes → Option Bytes)
    {x w u : Bytes} (h1 : ((h x).bind fun p => L.x.mul a p) = some w) (h2 : (if w.length = 32 then L.x.mul b w else none) = some u) :
    Twice L.x a b h x u := by
  have hser : L.x.ser = id := funext hL.ser
  refine twice_of L.x sx hx a b h x w u ?_ ?_
  · rw [hser]; simpa using h1
  · rw [hser, hL.de]
    by_cases hw : w.length = 32
    · rw [if_pos hw] at h2 ⊢
      simpa using h2
    · rw [if_neg hw] at h2; simp at h2

/-- Two parties with the same curve, each on its own processor: their doubly masked lists agree at two places exactly if the items at
these places have the same point. -/
theorem C110_meet (L : Prims F S) (hL : Laws L) (sx : Bytes → Bytes → Prop) (sf : F → F → Prop) (ss : S → S → Prop)
    (hx : Spec.Good L.x sx) (hf : Spec.Good L.f sf) (hs : Spec.Good L.s ss)
    (ca cb : Cpu) (v : Curve) (ka kb : Kind) (ha : createEccCryptor ca v = .ok ka) (hb : createEccCryptor cb v = .ok kb)
    (a b : Bytes) (xs ys ma mb outa outb : List Bytes) (cs ds cs' ds' : Fin 3 → List (Nat × Nat)) (f0 : F) (s0 : S)
    (hc : ∀ i, Cover xs.length (cs i)) (hd : ∀ i, Cover ma.length (ds i)) (hc' : ∀ i, Cover ys.length (cs' i))
    (hd' : ∀ i, Cover mb.length (ds' i))
    (h1 : maskItems L ka a xs cs f0 s0 = .ok ma) (h2 : maskWire L kb b ma ds f0 s0 = .ok outa)
    (h3 : maskItems L kb b ys cs' f0 s0 = .ok mb) (h4 : maskWire L ka a mb ds' f0 s0 = .ok outb)
    (i j : Nat) (x y u w : Bytes) (hxi : xs[i]? = some x) (hyj : ys[j]? = some y) (hu : outa[i]? = some u) (hw : outb[j]? = some w) :
    u = w ↔ Spec.sameHash L sx sf ss v x y := by
  obtain ⟨p, hp1, hp2⟩ := twice_kind L hL hc hd h1 h2 hxi hu
  obtain ⟨q, hq1, hq2⟩ := twice_kind L hL hc' hd' h3 h4 hyj hw
  have A := create_kinds ca v ka ha
  have B := create_kinds cb v kb hb
  cases v with
  | invalid => simp at A
  | c25519 =>
    have hk : ∀ k : Kind, k = .ipp ∨ k = .sodium → (∀ key t, kindItem L k key t = (some (L.sha t)).bind fun p => L.x.mul key p)
        ∧ ∀ key t, kindWire L k key t = if t.length = 32 then L.x.mul key t else none := by
      rintro k (rfl | rfl) <;> exact ⟨fun _ _ => rfl, fun _ _ => rfl⟩
    simp at A B
    rw [(hk ka A).1] at hp1
    rw [(hk kb B).1] at hq1
    rw [(hk kb B).2] at hp2
    rw [(hk ka A).2] at hq2
    rw [twice_iff L.x sx hx a b _ _ x y u w (x_twice L hL hx (fun t => some (L.sha t)) hp1 hp2)
      (x_twice L hL hx (fun t => some (L.sha t)) hq1 hq2)]
    simp [Spec.sameHash]
  | elligator2 =>
    have hk : ∀ k : Kind, k = .ippElligator ∨ k = .sodiumElligator →
        (∀ key t, kindItem L k key t = (L.elligator t).bind fun p => L.x.mul key p)
        ∧ ∀ key t, kindWire L k key t = if t.length = 32 then L.x.mul key t else none := by
      rintro k (rfl | rfl) <;> exact ⟨fun _ _ => rfl, fun _ _ => rfl⟩
    simp at A B
    rw [(hk ka A).1] at hp1
    rw [(hk kb B).1] at hq1
    rw [(hk kb B).2] at hp2
    rw [(hk ka A).2] at hq2
    exact twice_iff L.x sx hx a b _ _ x y u w (x_twice L hL hx L.elligator hp1 hp2) (x_twice L hL hx L.elligator hq1 hq2)
  | fourq =>
    simp at A B
    subst A B
    exact twice_iff L.f sf hf a b _ _ x y u w (twice_of L.f sf hf a b L.fourqHash x p u hp1 hp2)
      (twice_of L.f sf hf b a L.fourqHash y q w hq1 hq2)
  | sm2 =>
    simp at A B
    subst A B
    exact twice_iff L.s ss hs a b _ _ x y u w (twice_of L.s ss hs a b L.smHash x p u hp1 hp2)
      (twice_of L.s ss hs b a L.smHash y q w hq1 hq2)
  | secp256k1 =>
    simp at A B
    subst A B
    exact twice_iff L.s ss hs a b _ _ x y u w (twice_of L.s ss hs a b L.smHash x p u hp1 hp2)
      (twice_of L.s ss hs b a L.smHash y q w hq1 hq2)

/-- A party with Curve25519 and a party with Curve25519 and Elligator pass the check, and an item they share is found only if the two
ways of hashing happen to give it the same point. -/
theorem C110_check_misses_elligator (L : Prims F S) (hL : Laws L) (sx : Bytes → Bytes → Prop) (hx : Spec.Good L.x sx)
    (ca cb : Cpu) (ka kb : Kind) (ha : createEccCryptor ca .c25519 = .ok ka) (hb : createEccCryptor cb .elligator2 = .ok kb) (t : Nat)
    (a b : Bytes) (xs ys ma mb outa outb : List Bytes) (cs ds cs' ds' : Fin 3 → List (Nat × Nat)) (f0 : F) (s0 : S)
    (hc : ∀ i, Cover xs.length (cs i)) (hd : ∀ i, Cover ma.length (ds i)) (hc' : ∀ i, Cover ys.length (cs' i))
    (hd' : ∀ i, Cover mb.length (ds' i))
    (h1 : maskItems L ka a xs cs f0 s0 = .ok ma) (h2 : maskWire L kb b ma ds f0 s0 = .ok outa)
    (h3 : maskItems L kb b ys cs' f0 s0 = .ok mb) (h4 : maskWire L ka a mb ds' f0 s0 = .ok outb)
    (i j : Nat) (x u w : Bytes) (hxi : xs[i]? = some x) (hyj : ys[j]? = some x) (hu : outa[i]? = some u) (hw : outb[j]? = some w) :
    checkConfig (t, ka) (t, kb) = true ∧ (u = w ↔ ∃ q, L.elligator x = some q ∧ sx (L.sha x) q) := by
  refine ⟨(C110_check_partial ca cb _ _ ka kb t t ha hb).2 ⟨rfl, Or.inr (Or.inl ⟨rfl, rfl⟩)⟩, ?_⟩
  obtain ⟨p, hp1, hp2⟩ := twice_kind L hL hc hd h1 h2 hxi hu
  obtain ⟨q, hq1, hq2⟩ := twice_kind L hL hc' hd' h3 h4 hyj hw
  have A := create_kinds ca _ ka ha
  have B := create_kinds cb _ kb hb
  simp at A B
  have e1 : kindItem L ka a x = (some (L.sha x)).bind fun p => L.x.mul a p := by rcases A with rfl | rfl <;> rfl
  have e2 : kindWire L kb b p = if p.length = 32 then L.x.mul b p else none := by rcases B with rfl | rfl <;> rfl
  have e3 : kindItem L kb b x = (L.elligator x).bind fun p => L.x.mul b p := by rcases B with rfl | rfl <;> rfl
  have e4 : kindWire L ka a q = if q.length = 32 then L.x.mul a q else none := by rcases A with rfl | rfl <;> rfl
  rw [e1] at hp1
  rw [e2] at hp2
  rw [e3] at hq1
  rw [e4] at hq2
  rw [twice_iff L.x sx hx a b _ _ x x u w (x_twice L hL hx (fun t => some (L.sha t)) hp1 hp2) (x_twice L hL hx L.elligator hq1 hq2)]
  simp

/-- The oblivious function of the unbalanced PSI computes in the group that is configured, or it is refused: for the curves on
Curve25519, for an invalid curve, and for FourQ on an x86 processor without AVX2. -/
theorem C110_oprf_group (c : Cpu) (v : Curve) :
    (∀ g, createOprf c v = .ok g → Spec.group v = some g)
      ∧ (createOprf c v = .throws ↔ Spec.group v = none ∨ Spec.group v = some .x25519 ∨ (v = .fourq ∧ c.x86 = true ∧ c.avx2 = false))
      ∧ createOprf c v ≠ .undefined := by
  obtain ⟨x, y, z⟩ := c
  cases v <;> cases x <;> cases y <;> simp [createOprf, groupId, Spec.group]

end Psi.Cryptor
