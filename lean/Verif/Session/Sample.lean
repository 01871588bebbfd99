import Verif.Session.Props

/-! Examples that meet the hypotheses of the theorems of C112. -/

namespace Psi.Session.Sample

open Psi.Session

/-- Four bytes. -/
def num (n : Nat) : Bytes := [UInt8.ofNat n, UInt8.ofNat (n / 256), UInt8.ofNat (n / 65536), UInt8.ofNat (n / 16777216)]

def unNum (a b c d : UInt8) : Nat := a.toNat + 256 * b.toNat + 65536 * c.toNat + 16777216 * d.toNat

theorem unNum_num {n : Nat} (h : n < 2 ^ 32) :
    unNum (UInt8.ofNat n) (UInt8.ofNat (n / 256)) (UInt8.ofNat (n / 65536)) (UInt8.ofNat (n / 16777216)) = n := by
  simp only [unNum, UInt8.toNat_ofNat']
  omega

def kindByte : Kind → UInt8
  | .unknown => 0
  | .parms => 1
  | .oprf => 2
  | .query => 3

/-- Parameters are a byte, queries and packages are lists of bytes. -/
def codec : Codec UInt8 Bytes Bytes where
  version := 1
  saveHeader k := [1, kindByte k]
  loadHeader
    | v :: k :: rest =>
      .ok (v.toNat, if k = 1 then .parms else if k = 2 then .oprf else if k = 3 then .query else .unknown) rest
    | _ => .runtime
  saveOp
    | .parms => []
    | .oprf data b => num b ++ data
    | .query q b => num b ++ q
  loadOp
    | .parms, _ => .ok .parms []
    | .oprf, a :: b :: c :: d :: rest => .ok (.oprf rest (unNum a b c d)) []
    | .query, a :: b :: c :: d :: rest => .ok (.query rest (unNum a b c d)) []
    | _, _ => .invalid
  saveResp
    | .parms p => [p]
    | .oprf d => d
    | .query n => num n
  loadResp
    | .parms, p :: _ => .ok (.parms p) []
    | .oprf, d => .ok (.oprf d) []
    | .query, a :: b :: c :: d :: _ => .ok (.query (unNum a b c d)) []
    | _, _ => .runtime
  savePart r := r
  loadPart b := .ok b []

theorem codec_ok : codec.Ok where
  header k t := by cases k <;> rfl
  op op h := by
    cases op with
    | parms => rfl
    | oprf data b => simp [codec, Op.kind, num, unNum_num h]
    | query q b => simp [codec, Op.kind, num, unNum_num h]
  resp r h := by
    cases r with
    | parms p => rfl
    | oprf d => rfl
    | query n => simp [codec, Resp.kind, num, unNum_num h]
  part r := rfl

/-- Data bases of at most 100 items; a package for every item; the OPRF adds the key.  Queries with a 9 make it throw. -/
def srv : Srv UInt8 Bytes Bytes Bytes UInt8 where
  params _ := 5
  oprf key data := if 99 ∈ data then none else some (data.map (· + key))
  valid _ q := decide (q.length ≤ 4)
  count db := (db.take 100).length
  work db q := if 9 ∈ q then ([], false) else ((db.take 100).map fun e => if e ∈ q then [e] else [], true)

def rcv : Rcv Bytes Bytes UInt8 Bytes Unit (List Bytes) where
  blind items := items
  extract _ d := d
  nothing := []
  makeQuery h := if h.length ≤ 5 then some (h, ()) else none
  finish _ _ ps := some (ps.filterMap id)

theorem lib_ok : LibOk srv rcv where
  blind _ := Iff.rfl
  oprf key data d hd h := by
    simp only [srv] at h
    split at h
    · simp at h
    · simp only [Option.some.injEq] at h
      rw [← h]
      simpa using hd
  count db q h := by
    simp only [srv] at h ⊢
    split at h
    · simp at h
    · rename_i hq
      simp [hq]
  small db := by
    simp only [srv, List.length_take]
    omega

/-- Bucket 0 with the key 1, bucket 1 with the key 2, bucket 2 is not there; the group of bucket 3 cannot be loaded. -/
def store : Store Bytes UInt8 := .group fun
  | 0 => some ⟨some [11, 12], 1⟩
  | 1 => some ⟨some [22], 2⟩
  | 2 => some ⟨none, 7⟩
  | _ => none

def st0 : St Bytes UInt8 := ⟨some [11, 12], 1⟩

def queries : List (Nat × List UInt8) := [(1, [20, 21]), (2, [5]), (0, [11])]

/-- The receiver has no file with parameters. -/
example : ∃ N, ∀ n (c : Config UInt8 Bytes Bytes Bytes UInt8 (List (List Bytes))),
    Steps codec srv store true n (start (runReceiver (fun _ => some rcv) none false "yacl" queries) st0) c →
    n ≤ N ∧ (n < N → ∃ c', Step codec srv store true c c') ∧
    (n = N → c.prog = .done [[[22]], [], [[], [12]]] ∧ c.snd = .stopped ∧ c.toSnd = [] ∧ c.toRcv = [] ∧
      c.rSent = c.sGot ∧ c.sSent = c.rGot) :=
  C112_session_partial codec_ok lib_ok store true false none 5 st0 (.inr ⟨rfl, [11, 12], rfl, rfl⟩) rfl queries _ <| by
    refine .cons ⟨by decide, ⟨some [22], 2⟩, [22, 23], [22, 23], (), rfl, by decide, fun _ => ⟨[22, 23], by decide, rfl⟩, rfl,
      by simp, ?_⟩ (.cons ⟨by decide, ⟨none, 7⟩, [12], [12], (), rfl, by decide, fun _ => ⟨[12], by decide, rfl⟩, rfl,
      fun _ => rfl, by simp⟩ (.cons ⟨by decide, st0, [12], [12], (), rfl, by decide, fun _ => ⟨[12], by decide, rfl⟩, rfl,
      by simp [st0], ?_⟩ .nil))
    · rintro db h
      cases h
      exact ⟨rfl, by decide, by decide⟩
    · rintro db h
      cases h
      exact ⟨rfl, by decide, by decide⟩

/-- One data base, an empty query and parameters from a file. -/
example : ∃ N, ∀ n (c : Config UInt8 Bytes Bytes Bytes UInt8 (List (List Bytes))),
    Steps codec srv .single false n (start (runReceiver (fun _ => some rcv) (some 5) true "yacl" [(0, [])]) st0) c →
    n ≤ N ∧ (n < N → ∃ c', Step codec srv .single false c c') ∧
    (n = N → c.prog = .done [[[], []]] ∧ c.snd = .stopped ∧ c.toSnd = [] ∧ c.toRcv = [] ∧
      c.rSent = c.sGot ∧ c.sSent = c.rGot) :=
  C112_session_partial codec_ok lib_ok .single false true (some 5) 5 st0 (.inl rfl) rfl [(0, [])] _ <| by
    refine .cons ⟨by decide, st0, [], [], (), rfl, fun _ => rfl, by simp, rfl, by simp [st0], ?_⟩ .nil
    rintro db h
    cases h
    exact ⟨rfl, by decide, by decide⟩

/-- A receiver that fails: six items are too many for its table (here: five). -/
def tooMany : Prog UInt8 Bytes Bytes (List (List Bytes)) :=
  runReceiver (fun _ => some rcv) (some 5) true "yacl" [(0, [1, 2, 3, 4, 5, 6])]

def after (k : Nat) (c : Config UInt8 Bytes Bytes Bytes UInt8 (List (List Bytes))) :
    Option (Config UInt8 Bytes Bytes Bytes UInt8 (List (List Bytes))) :=
  match k with
  | 0 => some c
  | k + 1 =>
    match stepR codec c with
    | some c' => after k c'
    | none =>
      match stepS codec srv store true c with
      | some c' => after k c'
      | none => none

theorem after_steps : ∀ (k n : Nat) (c0 c c' : Config UInt8 Bytes Bytes Bytes UInt8 (List (List Bytes))),
    Steps codec srv store true n c0 c → after k c = some c' → Steps codec srv store true (n + k) c0 c'
  | 0, n, c0, c, c', h, ha => by
    simp only [after, Option.some.injEq] at ha
    subst ha
    exact h
  | k + 1, n, c0, c, c', h, ha => by
    rw [after] at ha
    split at ha
    · rename_i c1 h1
      have := after_steps k (n + 1) c0 c1 c' (.step h (.inl h1)) ha
      rwa [show n + (k + 1) = n + 1 + k by omega]
    · split at ha
      · rename_i c1 h1
        have := after_steps k (n + 1) c0 c1 c' (.step h (.inr h1)) ha
        rwa [show n + (k + 1) = n + 1 + k by omega]
      · simp at ha

/-- It does fail, and the sender goes on waiting. -/
example : ∃ c, Steps codec srv store true 3 (start tooMany st0) c ∧ c.prog = .fail ∧
    ∀ n' c', Steps codec srv store true n' c c' → c'.prog = .fail ∧ ∃ st', c'.snd = .running st' := by
  have h : Steps codec srv store true (0 + 3) (start tooMany st0) _ := after_steps 3 0 _ _ _ (.refl _) rfl
  refine ⟨_, h, rfl, fun n' c' hs => ?_⟩
  exact C112_failed_receiver codec_ok srv (fun _ => some rcv) store true true (some 5) "yacl" st0 _ (by simp) h rfl hs

/-- The sender has not ended before the receiver was done. -/
example (n : Nat) (c : Config UInt8 Bytes Bytes Bytes UInt8 (List (List Bytes)))
    (h : Steps codec srv store true n (start (runReceiver (fun _ => some rcv) none false "yacl" queries) st0) c)
    (hs : c.snd = .stopped) : ∃ ms, c.prog = .done ms :=
  C112_stops_only_after codec_ok srv _ store true false none "yacl" st0 queries (by decide) h (by simp [hs])

/-- With `zmp` the sender waits. -/
example (n : Nat) (c : Config UInt8 Bytes Bytes Bytes UInt8 (List (List Bytes)))
    (h : Steps codec srv store true n (start (runReceiver (fun _ => some rcv) none false "zmp" queries) st0) c) :
    ∃ st', c.snd = .running st' :=
  C112_channel_name codec_ok srv _ store true false none "zmp" (by decide) st0 queries (by decide) h

/-- Bucket 3, OPRF data that are refused, a query that is too long, one whose computation throws, parameters after bucket 2. -/
example : NoAnswer srv store true st0 (.oprf [1] 3) ∧ NoAnswer srv store true st0 (.oprf [99] 0) ∧
    NoAnswer srv store true st0 (.query [1, 2, 3, 4, 5] 0) ∧ NoAnswer srv store false st0 (.query [9] 0) ∧
    NoAnswer srv store true ⟨none, 7⟩ .parms := by
  refine ⟨⟨by decide, fun _ h => by cases h⟩, ⟨by decide, fun _ h => by cases h; decide⟩,
    fun _ h => ?_, fun _ h => ?_, rfl⟩
  · cases h; exact ⟨_, rfl, .inl (by decide)⟩
  · cases h; exact ⟨_, rfl, .inr ⟨rfl, by decide⟩⟩

example (f : Resp UInt8 → Prog UInt8 Bytes Bytes Nat) (n : Nat) (c : Config UInt8 Bytes Bytes Bytes UInt8 Nat)
    (hs : Steps codec srv store true n (start (.send (.query [1, 2, 3, 4, 5] 0) (.recv .query f)) st0) c) :
    n ≤ 2 ∧ (n < 2 → ∃ c', Step codec srv store true c c') ∧ (n = 2 → Stuck codec srv store true c) :=
  C112_no_answer codec_ok srv store true st0 (.query [1, 2, 3, 4, 5] 0) (by simp [Op.fits])
    (fun _ h => by cases h; exact ⟨_, rfl, .inl (by decide)⟩) .query f hs

/-- A thread throws after no package of two. -/
example (k : List Bytes → Prog UInt8 Bytes Bytes Nat) :
    ∃ N, ∀ n (c : Config UInt8 Bytes Bytes Bytes UInt8 Nat),
      Steps codec srv store true n (start (requestQuery rcv true [9] 0 k) st0) c →
      n ≤ N ∧ (n < N → ∃ c', Step codec srv store true c c') ∧ (n = N → Stuck codec srv store true c) :=
  C112_fewer_packages codec_ok srv store rcv true st0 st0 0 (by decide) rfl [11, 12] rfl [9] [9] () rfl (by decide) (by decide)
    (by decide) k

/-- Bytes that are no request, bytes that are the request to stop. -/
example : (feed codec srv store true st0 [7, 7, 7]).1 = .running st0 ∧ (feed codec srv store true st0 []).1 = .running st0 ∧
    (feed codec srv store true st0 [1, 2, 255, 255, 255, 255]).1 = .stopped ∧
    (receiveOp codec true .unknown [1, 2, 255, 255, 255, 255]).2 = .some (stopOp Bytes) := by decide

example : (feed codec srv store true st0 [1, 2, 255, 255, 255, 255]).1 = .stopped :=
  (C112_any_bytes codec srv store true st0 _).1.2 (by decide)

example (b : Bytes) : (feed codec srv store true st0 b).1 ≠ .crashed :=
  (C112_any_bytes codec srv store true st0 b).2
    (fun b => by
      match b with
      | [] => simp [codec]
      | [_] => simp [codec]
      | _ :: _ :: _ => simp [codec])
    (fun k b => by
      match k, b with
      | .unknown, _ => simp [codec]
      | .parms, _ => simp [codec]
      | .oprf, _ :: _ :: _ :: _ :: _ => simp [codec]
      | .query, _ :: _ :: _ :: _ :: _ => simp [codec]
      | .oprf, [] | .oprf, [_] | .oprf, [_, _] | .oprf, [_, _, _] => simp [codec]
      | .query, [] | .query, [_] | .query, [_, _] | .query, [_, _, _] => simp [codec])

example : receiveOp codec true .query (encOp codec (.query [4, 5] 77)) = (8, .some (.query [4, 5] 77)) :=
  (C112_messages codec_ok).1 _ (by simp [Op.fits]) .query (.inr rfl)

/-- A stripped data base, and one that still has its key. -/
example : makeSingle (fun _ => true) (fun _ => (1 : Nat)) (some ()) 1 = .ok ⟨some (), 1⟩ ∧
    makeSingle (fun _ => false) (fun _ => (1 : Nat)) (some ()) 1 = .undefined := by decide

example := (C112_unstripped (fun _ : Unit => true) (fun _ => (1 : Nat)) () 1 (by decide)).2

end Psi.Session.Sample
