import Verif.Session.Lemmas
import Mathlib.Tactic.Set

/-! # C112: a session of the labeled PSI over a link -/

namespace Psi.Session

variable {P Q R Db Key I H T M A : Type}

/-- What is asked of the library: no items, no data; OPRF data are answered by data; as many packages as announced. -/
structure LibOk (S : Srv P Q R Db Key) (r : Rcv Q R I H T M) : Prop where
  blind : ∀ items, r.blind items = [] ↔ items = []
  oprf : ∀ key data d, data ≠ [] → S.oprf key data = some d → d ≠ []
  count : ∀ db q, (S.work db q).2 = true → (S.work db q).1.length = S.count db
  small : ∀ db, S.count db < 2 ^ 32

/-- The query of one bucket can be answered, and `m` is what comes out: the hashes are those of the key of the bucket, the
packages are those of the data base of the bucket, and there are none if the bucket is not there. -/
def Answer (S : Srv P Q R Db Key) (look : Nat → Option (St Db Key)) (r : Rcv Q R I H T M) (query : Nat × List I) (m : M) :
    Prop :=
  query.1 < 2 ^ 32 - 1 ∧ ∃ st h q t, look query.1 = some st ∧
    (query.2 = [] → h = r.nothing) ∧
    (query.2 ≠ [] → ∃ d, S.oprf st.key (r.blind query.2) = some d ∧ h = r.extract query.2 d) ∧
    r.makeQuery h = some (q, t) ∧
    (st.db = none → r.finish h t [] = some m) ∧
    (∀ db, st.db = some db →
      S.valid db q = true ∧ (S.work db q).2 = true ∧ r.finish h t ((S.work db q).1.map some) = some m)

theorem setBucket_again {store : Store Db Key} {st st' : St Db Key} {b : Nat} (h : setBucket store st b = some st')
    (b' : Nat) : setBucket store st' b' = setBucket store st b' := by
  cases store with
  | single => simp only [setBucket, Option.some.injEq] at h ⊢; exact h.symm
  | group look => rfl

section
variable {C : Codec P Q R} (hC : C.Ok) (S : Srv P Q R Db Key) (store : Store Db Key) (streaming : Bool)
include hC

theorem expect_send {op : Op Q} (hop : op.fits) (p : Prog P Q R A) (st : St Db Key) (w : List Bytes) :
    expect C S store streaming (.send op p) (.running st) w =
      (expect C S store streaming p
        (if (serve S store streaming st op).2.2 then .stopped else .running (serve S store streaming st op).1)
        (w ++ (serve S store streaming st op).2.1.map (encMsg C))).map fun x => (x.1, x.2.1, x.2.2 + 2) := by
  simp only [expect, feed_enc hC S store streaming st hop, if_true]

theorem expect_recv {r : Resp P} (hr : r.fits) (f : Resp P → Prog P Q R A) (s : Snd Db Key) (w : List Bytes) :
    expect C S store streaming (.recv r.kind f) s (encMsg C (.resp r) :: w) =
      (expect C S store streaming (f r) s w).map fun x => (x.1, x.2.1, x.2.2 + 1) := by
  simp only [expect, receiveResp_enc hC hr, and_self, if_true]

theorem expect_collect (again : Bool) (s : Snd Db Key) (w : List Bytes) (k : List (Option R) → Prog P Q R A) :
    ∀ (ps : List R) (acc : List (Option R)),
    expect C S store streaming (collect again ps.length acc k) s (ps.map (fun p => encMsg C (.part p)) ++ w) =
      (expect C S store streaming (k (acc ++ ps.map some)) s w).map fun x => (x.1, x.2.1, x.2.2 + ps.length) := by
  intro ps
  induction ps with
  | nil =>
    intro acc
    simp [collect]
  | cons p ps ih =>
    intro acc
    simp only [List.length_cons, collect, List.map_cons, List.cons_append, expect, receivePart_enc hC, if_true]
    rw [ih]
    simp only [Option.map_map, List.append_assoc, List.cons_append, List.nil_append]
    congr 1

variable {r : Rcv Q R I H T M} (hL : LibOk S r) [DecidableEq I]
include hL

theorem expect_rounds (streaming' : Bool) (st0 : St Db Key) :
    ∀ (queries : List (Nat × List I)) (ms acc : List M) (st : St Db Key),
    (∀ b, setBucket store st b = setBucket store st0 b) →
    List.Forall₂ (Answer S (setBucket store st0) r) queries ms →
    ∃ N, expect C S store streaming (rounds r streaming' "yacl" queries acc) (.running st) [] =
      some (.done (acc ++ ms), .stopped, N) := by
  intro queries
  induction queries with
  | nil =>
    intro ms acc st hst h
    cases h
    refine ⟨2, ?_⟩
    rw [rounds, finish, if_pos rfl, expect_send hC S store streaming (by simp [stopOp, Op.fits])]
    simp [serve, stopOp, expect]
  | cons query queries ih =>
    intro ms acc st hst h
    obtain ⟨b, items⟩ := query
    cases h with
    | cons hq hrest =>
    rename_i m ms
    obtain ⟨hb, st', h, q, t, hlook, hnil, hcons, hmk, hnone, hsome⟩ := hq
    dsimp only at hb hlook hnil hcons
    have hset : setBucket store st b = some st' := by rw [hst]; exact hlook
    have hst' : ∀ b, setBucket store st' b = setBucket store st0 b := fun b' => by rw [setBucket_again hset, hst]
    obtain ⟨N, hN⟩ := ih ms (acc ++ [m]) st' hst' hrest
    rw [List.append_assoc, List.singleton_append] at hN
    have hb32 : b < 2 ^ 32 := by omega
    have hbne : b ≠ 2 ^ 32 - 1 := by omega
    -- the query
    have hquery : ∀ stx, setBucket store stx b = some st' → ∃ N,
        expect C S store streaming (requestQuery r streaming' h b fun m =>
          rounds r streaming' "yacl" queries (acc ++ [m])) (.running stx) [] = some (.done (acc ++ m :: ms), .stopped, N) := by
      intro stx hstx
      unfold requestQuery
      rw [hmk]
      dsimp only
      rw [expect_send hC S store streaming (by simpa [Op.fits] using hb32)]
      cases hdb : st'.db with
      | none =>
        have hs : serve S store streaming stx (.query q b) = (st', [.resp (.query 0)], false) := by
          simp only [serve, hstx, hdb]
        rw [hs]
        dsimp only
        rw [List.map_cons, List.map_nil, List.nil_append,
          show (Kind.query) = (Resp.query (P := P) 0).kind from rfl, expect_recv hC S store streaming (by simp [Resp.fits])]
        simp only [collect, settle, hnone hdb, Bool.false_eq_true, if_false, hN]
        exact ⟨_, rfl⟩
      | some db =>
        obtain ⟨hv, hw, hf⟩ := hsome db hdb
        have hs : serve S store streaming stx (.query q b) =
            (st', .resp (.query (S.count db)) :: (S.work db q).1.map .part, false) := by
          simp only [serve, hstx, hdb, runQuery, hv, hw, Bool.or_true, if_true]
        rw [hs]
        dsimp only
        rw [List.map_cons, List.nil_append, show (Kind.query) = (Resp.query (P := P) (S.count db)).kind from rfl,
          expect_recv hC S store streaming (by simpa [Resp.fits] using hL.small db)]
        have hcol := expect_collect (A := List M) hC S store streaming streaming' (.running st' : Snd Db Key) []
          (fun ps => settle (r.finish h t ps) fun m => rounds r streaming' "yacl" queries (acc ++ [m])) (S.work db q).1 []
        rw [hL.count db q hw, List.append_nil, List.nil_append] at hcol
        simp only [hf, settle, hN] at hcol
        simp only [Bool.false_eq_true, if_false, List.map_map, settle]
        rw [show (encMsg C ∘ Msg.part) = fun p => encMsg C (.part p) from rfl, hcol]
        exact ⟨_, rfl⟩
    -- the OPRF
    rw [rounds, requestOprf]
    rw [expect_send hC S store streaming (by simpa [Op.fits] using hb32)]
    have hns : ¬ (r.blind items = [] ∧ b = 2 ^ 32 - 1) := fun hh => hbne hh.2
    have hs : serve S store streaming st (.oprf (r.blind items) b) = (st', runOprf S st'.key (r.blind items), false) := by
      simp only [serve, if_neg hns, hset]
    rw [hs]
    dsimp only
    have hself : setBucket store st' b = some st' := by rw [hst']; exact hlook
    by_cases hi : items = []
    · have hbl : r.blind items = [] := (hL.blind items).2 hi
      obtain ⟨N', hN'⟩ := hquery st' hself
      rw [hnil hi] at hN'
      simp only [hi, if_true, runOprf, (hL.blind []).2 rfl, List.map_nil, List.append_nil, Bool.false_eq_true, if_false, hN']
      exact ⟨_, rfl⟩
    · obtain ⟨d, hd, rfl⟩ := hcons hi
      have hbl : r.blind items ≠ [] := fun hh => hi ((hL.blind items).1 hh)
      have hdn : d ≠ [] := hL.oprf _ _ _ hbl hd
      obtain ⟨N', hN'⟩ := hquery st' hself
      simp only [if_neg hi, runOprf, if_neg hbl, hd, if_neg hdn, List.map_cons, List.map_nil, List.nil_append,
        Bool.false_eq_true, if_false]
      rw [show (Kind.oprf) = (Resp.oprf (P := P) d).kind from rfl, expect_recv hC S store streaming (by simp [Resp.fits])]
      dsimp only
      rw [hN']
      exact ⟨_, rfl⟩

end

/-- **C112** (a session ends well).  Suppose the query of every bucket can be answered.  Then under every order of the steps of
the two parties the session ends after the same number of steps; the receiver has, for every bucket, the answers of that
bucket's data base; the loop of the sender has ended; no message is left; and each party has counted as received what the
other has counted as sent.  It does not matter whether the parties agree on streaming. -/
theorem C112_session_partial {C : Codec P Q R} (hC : C.Ok) {S : Srv P Q R Db Key} {make : P → Option (Rcv Q R I H T M)}
    {r : Rcv Q R I H T M} (hL : LibOk S r) [DecidableEq I] (store : Store Db Key) (streaming streaming' : Bool)
    (file : Option P) (p : P) (st : St Db Key) (hp : file = some p ∨ file = none ∧ ∃ db, st.db = some db ∧ S.params db = p)
    (hmake : make p = some r) (queries : List (Nat × List I)) (ms : List M)
    (hq : List.Forall₂ (Answer S (setBucket store st) r) queries ms) :
    ∃ N, ∀ n (c : Config P Q R Db Key (List M)),
      Steps C S store streaming n (start (runReceiver make file streaming' "yacl" queries) st) c →
      n ≤ N ∧ (n < N → ∃ c', Step C S store streaming c c') ∧
      (n = N → c.prog = .done ms ∧ c.snd = .stopped ∧ c.toSnd = [] ∧ c.toRcv = [] ∧ c.rSent = c.sGot ∧
        c.sSent = c.rGot) := by
  obtain ⟨N, hN⟩ := expect_rounds hC S store streaming hL streaming' st queries ms [] st (fun _ => rfl) hq
  rw [List.nil_append] at hN
  have h : ∃ N, expect C S store streaming (runReceiver make file streaming' "yacl" queries) (.running st) [] =
      some (.done ms, .stopped, N) := by
    rcases hp with rfl | ⟨rfl, db, hdb, hpar⟩
    · exact ⟨N, by simpa only [runReceiver, hmake] using hN⟩
    · simp only [runReceiver]
      rw [expect_send hC S store streaming (by simp [Op.fits])]
      have hs : serve S store streaming st .parms = (st, [.resp (.parms p)], false) := by simp only [serve, hdb, hpar]
      rw [hs]
      dsimp only
      rw [List.map_cons, List.map_nil, List.nil_append, show (Kind.parms) = (Resp.parms p).kind from rfl,
        expect_recv hC S store streaming (by simp [Resp.fits])]
      dsimp only
      rw [hmake]
      simp only [Bool.false_eq_true, if_false, hN]
      exact ⟨_, rfl⟩
  obtain ⟨N', hN'⟩ := h
  exact ⟨N', fun n c hs => runs_end C S store streaming hN' hs⟩

/-! ### The end of the loop -/

/-- The request to stop is sent last, and only if `ok`. -/
def StopLast (ok : Prop) : Prog P Q R A → Prop
  | .done _ => True
  | .fail => True
  | .send op k => op.fits ∧ StopLast ok k ∧ (op = stopOp Q → ok ∧ ∃ a, k = .done a)
  | .recv _ f => ∀ r, StopLast ok (f r)
  | .part _ f => ∀ r, StopLast ok (f r)

theorem serve_stop {S : Srv P Q R Db Key} {store : Store Db Key} {streaming : Bool} {st : St Db Key} {op : Op Q} :
    (serve S store streaming st op).2.2 = true ↔ op = stopOp Q := by
  cases op with
  | parms => simp only [serve, stopOp]; split <;> simp
  | oprf data b =>
    simp only [serve, stopOp, Op.oprf.injEq]
    split
    · simp_all
    · rename_i hn
      simp only [hn, iff_false]
      split <;> simp
  | query q b =>
    simp only [serve, stopOp]
    split
    · simp
    · split <;> simp

/-- What stays true in all runs: as long as no request to stop was made the sender waits for requests, and after it the
receiver is done. -/
def Live (ok : Prop) (C : Codec P Q R) (c : Config P Q R Db Key A) : Prop :=
  (StopLast ok c.prog ∧ (∃ st, c.snd = .running st) ∧ ∀ b ∈ c.toSnd, ∃ op : Op Q, op.fits ∧ op ≠ stopOp Q ∧ b = encOp C op) ∨
    ok ∧ ∃ a, c.prog = .done a

theorem Live.step {ok : Prop} {C : Codec P Q R} (hC : C.Ok) {S : Srv P Q R Db Key} {store : Store Db Key} {streaming : Bool}
    {c c' : Config P Q R Db Key A} (h : Live ok C c) (hs : Step C S store streaming c c') : Live ok C c' := by
  rcases hs with hs | hs
  · unfold stepR at hs
    split at hs
    · simp at hs
    · simp at hs
    · rename_i op k hp
      simp only [Option.some.injEq] at hs
      subst hs
      rcases h with ⟨h1, h2, h3⟩ | ⟨hok, a, ha⟩
      · rw [hp] at h1
        obtain ⟨hf, hk, hstop⟩ := h1
        by_cases ho : op = stopOp Q
        · exact .inr (hstop ho)
        · refine .inl ⟨hk, h2, fun b hb => ?_⟩
          simp only [List.mem_append, List.mem_singleton] at hb
          rcases hb with hb | rfl
          · exact h3 b hb
          · exact ⟨op, hf, ho, rfl⟩
      · simp [hp] at ha
    · rename_i kd f hp
      rcases h with ⟨h1, h2, h3⟩ | ⟨hok, a, ha⟩
      · rw [hp] at h1
        split at hs
        · simp at hs
        · split at hs
          · simp only [Option.some.injEq] at hs
            subst hs
            exact .inl ⟨trivial, h2, h3⟩
          · simp only [Option.some.injEq] at hs
            subst hs
            refine .inl ⟨?_, h2, h3⟩
            dsimp only
            rw [hp]
            exact h1
          · split at hs
            · simp only [Option.some.injEq] at hs
              subst hs
              exact .inl ⟨h1 _, h2, h3⟩
            · simp only [Option.some.injEq] at hs
              subst hs
              refine .inl ⟨?_, h2, h3⟩
              dsimp only
              rw [hp]
              exact h1
      · simp [hp] at ha
    · rename_i ag f hp
      rcases h with ⟨h1, h2, h3⟩ | ⟨hok, a, ha⟩
      · have h1' := h1
        rw [hp] at h1
        split at hs
        · simp at hs
        · split at hs
          · simp only [Option.some.injEq] at hs
            subst hs
            exact .inl ⟨trivial, h2, h3⟩
          · simp only [Option.some.injEq] at hs
            subst hs
            refine .inl ⟨?_, h2, h3⟩
            dsimp only
            split
            · exact h1'
            · exact h1 _
          · simp only [Option.some.injEq] at hs
            subst hs
            exact .inl ⟨h1 _, h2, h3⟩
      · simp [hp] at ha
  · unfold stepS at hs
    split at hs
    · rename_i st b w hst hw
      generalize hz : feed C S store streaming st b = z at hs
      obtain ⟨s1, o1, n1⟩ := z
      simp only [Option.some.injEq] at hs
      subst hs
      rcases h with ⟨h1, h2, h3⟩ | ⟨hok, a, ha⟩
      · obtain ⟨op, hf, ho, rfl⟩ := h3 b (by rw [hw]; simp)
        rw [feed_enc hC S store streaming st hf] at hz
        have hns : ¬ (serve S store streaming st op).2.2 = true := fun hh => ho (serve_stop.1 hh)
        rw [if_neg hns] at hz
        simp only [Prod.mk.injEq] at hz
        exact .inl ⟨h1, ⟨_, hz.1.symm⟩, fun b hb => h3 b (by rw [hw]; simp [hb])⟩
      · exact .inr ⟨hok, a, ha⟩
    · simp at hs

theorem Live.steps {ok : Prop} {C : Codec P Q R} (hC : C.Ok) {S : Srv P Q R Db Key} {store : Store Db Key} {streaming : Bool}
    {n : Nat} {c c' : Config P Q R Db Key A} (h : Live ok C c) (hs : Steps C S store streaming n c c') : Live ok C c' := by
  induction hs with
  | refl => exact h
  | step _ h1 ih => exact (ih h).step hC h1

theorem stopLast_collect {ok : Prop} (again : Bool) (k : List (Option R) → Prog P Q R A) (hk : ∀ ps, StopLast ok (k ps)) :
    ∀ (n : Nat) (acc : List (Option R)), StopLast ok (collect again n acc k)
  | 0, acc => hk acc
  | n + 1, _ => fun _ => stopLast_collect again k hk n _

theorem stopLast_rounds (r : Rcv Q R I H T M) (streaming : Bool) (channel : String) [DecidableEq I] :
    ∀ (queries : List (Nat × List I)) (acc : List M), (∀ x ∈ queries, x.1 < 2 ^ 32 - 1) →
    StopLast (P := P) (channel = "yacl") (rounds r streaming channel queries acc)
  | [], _, _ => by
    rw [rounds, finish]
    split
    · rename_i hch
      exact ⟨by simp [stopOp, Op.fits], trivial, fun _ => ⟨hch, _, rfl⟩⟩
    · trivial
  | (b, items) :: rest, acc, hb => by
    have hb0 : b < 2 ^ 32 - 1 := hb (b, items) (by simp)
    have hq : ∀ h, StopLast (P := P) (channel = "yacl") (requestQuery r streaming h b fun m => rounds r streaming channel rest (acc ++ [m])) := by
      intro h
      unfold requestQuery
      split
      · trivial
      · refine ⟨by simp only [Op.fits]; omega, fun resp => ?_, fun hh => by simp [stopOp] at hh⟩
        cases resp with
        | query n =>
          refine stopLast_collect _ _ (fun ps => ?_) _ _
          unfold settle
          split
          · trivial
          · exact stopLast_rounds r streaming channel rest _ fun x hx => hb x (by simp [hx])
        | parms _ => trivial
        | oprf _ => trivial
    rw [rounds, requestOprf]
    refine ⟨by simp only [Op.fits]; omega, ?_, fun hh => ?_⟩
    · split
      · exact hq _
      · intro resp
        cases resp with
        | oprf d => exact hq _
        | parms _ => trivial
        | query _ => trivial
    · simp only [stopOp, Op.oprf.injEq] at hh
      omega

theorem stopLast_runReceiver (make : P → Option (Rcv Q R I H T M)) (file : Option P) (streaming : Bool) (channel : String)
    [DecidableEq I] (queries : List (Nat × List I)) (hb : ∀ x ∈ queries, x.1 < 2 ^ 32 - 1) :
    StopLast (channel = "yacl") (runReceiver make file streaming channel queries) := by
  have hgo : ∀ p, StopLast (channel = "yacl") (match make p with
      | none => (.fail : Prog P Q R (List M))
      | some r => rounds r streaming channel queries []) := by
    intro p
    cases make p with
    | none => trivial
    | some r => exact stopLast_rounds r streaming channel queries _ hb
  unfold runReceiver
  cases file with
  | some p => exact hgo p
  | none =>
    refine ⟨by simp [Op.fits], fun resp => ?_, fun hh => by simp [stopOp] at hh⟩
    cases resp with
    | parms p => exact hgo p
    | oprf _ => trivial
    | query _ => trivial

/-- **C112** (the sender ends only when the receiver is done).  Whatever the data bases, the library and the order of the steps
do: when the loop of the sender has ended, the receiver has all its answers; and an exception never leaves the loop. -/
theorem C112_stops_only_after {C : Codec P Q R} (hC : C.Ok) (S : Srv P Q R Db Key) (make : P → Option (Rcv Q R I H T M))
    [DecidableEq I] (store : Store Db Key) (streaming streaming' : Bool) (file : Option P) (channel : String)
    (st : St Db Key) (queries : List (Nat × List I)) (hb : ∀ x ∈ queries, x.1 < 2 ^ 32 - 1) {n : Nat}
    {c : Config P Q R Db Key (List M)}
    (hs : Steps C S store streaming n (start (runReceiver make file streaming' channel queries) st) c)
    (hsnd : ¬ ∃ st', c.snd = .running st') : ∃ ms, c.prog = .done ms := by
  have h0 : Live (channel = "yacl") C (start (runReceiver make file streaming' channel queries) st) :=
    .inl ⟨stopLast_runReceiver _ _ _ _ _ hb, ⟨st, rfl⟩, by simp [start]⟩
  rcases h0.steps hC hs with ⟨-, h, -⟩ | h
  · exact absurd h hsnd
  · exact h.2

/-- **C112** (finding: after a failure of the receiver the sender waits).  When the receiver has failed (an exception in
`create_query` or in `process_result`, parameters it cannot use) it has left without the last message: the sender waits for
requests, and will go on waiting. -/
theorem C112_failed_receiver {C : Codec P Q R} (hC : C.Ok) (S : Srv P Q R Db Key) (make : P → Option (Rcv Q R I H T M))
    [DecidableEq I] (store : Store Db Key) (streaming streaming' : Bool) (file : Option P) (channel : String)
    (st : St Db Key) (queries : List (Nat × List I)) (hb : ∀ x ∈ queries, x.1 < 2 ^ 32 - 1) {n n' : Nat}
    {c c' : Config P Q R Db Key (List M)}
    (hs : Steps C S store streaming n (start (runReceiver make file streaming' channel queries) st) c)
    (hfail : c.prog = .fail) (hs' : Steps C S store streaming n' c c') : c'.prog = .fail ∧ ∃ st', c'.snd = .running st' := by
  have h0 : Live (channel = "yacl") C (start (runReceiver make file streaming' channel queries) st) :=
    .inl ⟨stopLast_runReceiver _ _ _ _ _ hb, ⟨st, rfl⟩, by simp [start]⟩
  have hf : c'.prog = .fail := by
    induction hs' with
    | refl => exact hfail
    | step _ h1 ih =>
      rcases h1 with h1 | h1
      · simp [stepR, ih hs hfail] at h1
      · unfold stepS at h1
        split at h1
        · split at h1
          simp only [Option.some.injEq] at h1
          subst h1
          exact ih hs hfail
        · simp at h1
  refine ⟨hf, ?_⟩
  rcases (h0.steps hC hs).steps hC hs' with ⟨-, h, -⟩ | ⟨-, a, h⟩
  · exact h
  · simp [hf] at h

/-- **C112** (finding: the name of the channel).  Every name but `zmq` takes the link, but the last message is sent only if the
name is `yacl`: with any other name (as `zmp`, which the help of the programs asks for) the sender never ends. -/
theorem C112_channel_name {C : Codec P Q R} (hC : C.Ok) (S : Srv P Q R Db Key) (make : P → Option (Rcv Q R I H T M))
    [DecidableEq I] (store : Store Db Key) (streaming streaming' : Bool) (file : Option P) (channel : String)
    (hch : channel ≠ "yacl") (st : St Db Key) (queries : List (Nat × List I)) (hb : ∀ x ∈ queries, x.1 < 2 ^ 32 - 1)
    {n : Nat} {c : Config P Q R Db Key (List M)}
    (hs : Steps C S store streaming n (start (runReceiver make file streaming' channel queries) st) c) :
    ∃ st', c.snd = .running st' := by
  have h0 : Live (channel = "yacl") C (start (runReceiver make file streaming' channel queries) st) :=
    .inl ⟨stopLast_runReceiver _ _ _ _ _ hb, ⟨st, rfl⟩, by simp [start]⟩
  rcases h0.steps hC hs with ⟨-, h, -⟩ | h
  · exact h
  · exact absurd h.1 hch

/-! ### Requests without an answer -/

/-- Nobody can make a step, and the receiver waits for a message. -/
def Stuck (C : Codec P Q R) (S : Srv P Q R Db Key) (store : Store Db Key) (streaming : Bool)
    (c : Config P Q R Db Key A) : Prop :=
  (∀ c', ¬ Step C S store streaming c c') ∧ (∃ st, c.snd = .running st) ∧
    ((∃ k f, c.prog = .recv k f) ∨ ∃ again f, c.prog = .part again f)

theorem stuck_of_waits (C : Codec P Q R) (S : Srv P Q R Db Key) (store : Store Db Key) (streaming : Bool)
    {c : Config P Q R Db Key A} {st : St Db Key} (h1 : c.snd = .running st) (h2 : c.toSnd = []) (h3 : c.toRcv = [])
    (h4 : (∃ k f, c.prog = .recv k f) ∨ ∃ again f, c.prog = .part again f) : Stuck C S store streaming c := by
  refine ⟨fun c' hs => ?_, ⟨st, h1⟩, h4⟩
  rcases hs with hs | hs
  · rcases h4 with ⟨k, f, h4⟩ | ⟨again, f, h4⟩ <;> simp [stepR, h4, h3] at hs
  · simp [stepS, h1, h2] at hs

/-- Nothing is sent in answer to: a request for parameters when the last bucket was not there, a request about a bucket whose
group cannot be loaded, OPRF data that the library refuses, a query that is not valid for the data base (as the parties have
other parameters), and, without streaming, a query whose computation throws. -/
def NoAnswer (S : Srv P Q R Db Key) (store : Store Db Key) (streaming : Bool) (st : St Db Key) : Op Q → Prop
  | .parms => st.db = none
  | .oprf data b => data ≠ [] ∧ ∀ st', setBucket store st b = some st' → S.oprf st'.key data = none
  | .query q b => ∀ st', setBucket store st b = some st' → ∃ db, st'.db = some db ∧
      (S.valid db q = false ∨ streaming = false ∧ (S.work db q).2 = false)

/-- **C112** (finding: requests without an answer).  The receiver waits for an answer to each request; where the sender only
logs an error, both wait for ever. -/
theorem C112_no_answer {C : Codec P Q R} (hC : C.Ok) (S : Srv P Q R Db Key) (store : Store Db Key) (streaming : Bool)
    (st : St Db Key) (op : Op Q) (hop : op.fits) (h : NoAnswer S store streaming st op) (k : Kind)
    (f : Resp P → Prog P Q R A) {n : Nat} {c : Config P Q R Db Key A}
    (hs : Steps C S store streaming n (start (.send op (.recv k f)) st) c) :
    n ≤ 2 ∧ (n < 2 → ∃ c', Step C S store streaming c c') ∧ (n = 2 → Stuck C S store streaming c) := by
  have hserve : ∃ st', serve S store streaming st op = (st', [], false) := by
    cases op with
    | parms => exact ⟨st, by simp only [serve, show st.db = none from h]⟩
    | oprf data b =>
      obtain ⟨hd, ho⟩ := h
      have hns : ¬ (data = [] ∧ b = 2 ^ 32 - 1) := fun hh => hd hh.1
      cases hb : setBucket store st b with
      | none => exact ⟨st, by simp only [serve, if_neg hns, hb]⟩
      | some st' => exact ⟨st', by simp only [serve, if_neg hns, hb, runOprf, if_neg hd, ho st' hb]⟩
    | query q b =>
      cases hb : setBucket store st b with
      | none => exact ⟨st, by simp only [serve, hb]⟩
      | some st' =>
        obtain ⟨db, hdb, hv⟩ := h st' hb
        refine ⟨st', ?_⟩
        simp only [serve, hb, hdb, runQuery]
        rcases hv with hv | ⟨hv, hw⟩ <;> simp [hv]
        simp [hw]
  obtain ⟨st', hserve⟩ := hserve
  have hfeed : feed C S store streaming st (encOp C op) = (.running st', [], (encOp C op).length) := by
    rw [feed_enc hC S store streaming st hop, hserve]; simp
  have he : expect C S store streaming (.send op (.recv k f)) (.running st) [] = some (.recv k f, .running st', 2) := by
    rw [expect_send hC S store streaming hop, hserve]
    simp [expect]
  obtain ⟨h1, h2, h3⟩ := runs_end C S store streaming he hs
  refine ⟨h1, h2, fun hn => ?_⟩
  obtain ⟨h4, h5, h6, h7, -, -⟩ := h3 hn
  exact stuck_of_waits C S store streaming h5 h6 h7 (.inl ⟨k, f, h4⟩)

/-- **C112** (finding: an exception while packages are streamed).  The response with the number of packages has been sent when
a thread throws: the receiver waits for packages that never come. -/
theorem C112_fewer_packages {C : Codec P Q R} (hC : C.Ok) (S : Srv P Q R Db Key) (store : Store Db Key)
    (r : Rcv Q R I H T M) (streaming : Bool) (st st' : St Db Key) (b : Nat) (hb : b < 2 ^ 32)
    (hst : setBucket store st b = some st') (db : Db) (hdb : st'.db = some db) (h : H) (q : Q) (t : T)
    (hq : r.makeQuery h = some (q, t)) (hv : S.valid db q = true) (hn : S.count db < 2 ^ 32)
    (hw : (S.work db q).1.length < S.count db) (k : M → Prog P Q R A) :
    ∃ N, ∀ n (c : Config P Q R Db Key A),
      Steps C S store true n (start (requestQuery r streaming h b k) st) c →
      n ≤ N ∧ (n < N → ∃ c', Step C S store true c c') ∧ (n = N → Stuck C S store true c) := by
  have hs : serve S store true st (.query q b) =
      (st', .resp (.query (S.count db)) :: (S.work db q).1.map .part, false) := by
    simp only [serve, hst, hdb, runQuery, hv, Bool.true_or, if_true]
  obtain ⟨d, hd⟩ : ∃ d, S.count db = (S.work db q).1.length + (d + 1) := ⟨S.count db - (S.work db q).1.length - 1, by omega⟩
  have hcol : ∀ (k' : List (Option R) → Prog P Q R A) (ps : List R) (acc : List (Option R)),
      ∃ f, expect C S store true (collect streaming (ps.length + (d + 1)) acc k') (.running st')
        (ps.map fun p => encMsg C (.part p)) = some (.part streaming f, .running st', ps.length) := by
    intro k' ps
    induction ps with
    | nil =>
      intro acc
      rw [List.length_nil, Nat.zero_add, collect, List.map_nil, expect]
      exact ⟨_, rfl⟩
    | cons p ps ih =>
      intro acc
      obtain ⟨f, hf⟩ := ih (acc ++ [some p])
      refine ⟨f, ?_⟩
      rw [List.length_cons, show ps.length + 1 + (d + 1) = (ps.length + (d + 1)) + 1 by omega, collect, List.map_cons, expect]
      simp only [receivePart_enc hC, if_true, hf, Option.map_some]
  obtain ⟨f, hf⟩ := hcol (fun ps => settle (r.finish h t ps) k) (S.work db q).1 []
  have he : expect C S store true (requestQuery r streaming h b k) (.running st) [] =
      some (.part streaming f, .running st', (S.work db q).1.length + 1 + 2) := by
    unfold requestQuery
    rw [hq]
    dsimp only
    rw [expect_send hC S store true (by simpa [Op.fits] using hb), hs]
    dsimp only
    rw [List.map_cons, List.nil_append, show (Kind.query) = (Resp.query (P := P) (S.count db)).kind from rfl,
      expect_recv hC S store true (by simpa [Resp.fits] using hn)]
    simp only [Bool.false_eq_true, if_false, List.map_map]
    rw [show (encMsg C ∘ Msg.part) = fun p => encMsg C (.part p) from rfl, hd, hf]
    rfl
  refine ⟨(S.work db q).1.length + 1 + 2, fun n c hs => ?_⟩
  obtain ⟨h1, h2, h3⟩ := runs_end C S store true he hs
  refine ⟨h1, h2, fun hn => ?_⟩
  obtain ⟨h4, h5, h6, h7, -, -⟩ := h3 hn
  exact stuck_of_waits C S store true h5 h6 h7 (.inr ⟨streaming, f, h4⟩)

/-! ### Messages that are no requests -/

/-- **C112** (only the request to stop ends the loop).  One turn of the loop for any bytes whatever: it ends the loop exactly if
the bytes are read as the request to stop.  If the library throws nothing but `runtime_error` for headers and `runtime_error`
or `invalid_argument` for bodies then no bytes make an exception leave the loop. -/
theorem C112_any_bytes (C : Codec P Q R) (S : Srv P Q R Db Key) (store : Store Db Key) (streaming : Bool) (st : St Db Key)
    (b : Bytes) :
    ((feed C S store streaming st b).1 = .stopped ↔ (receiveOp C true .unknown b).2 = .some (stopOp Q)) ∧
      ((∀ b, C.loadHeader b ≠ .invalid ∧ C.loadHeader b ≠ .other) → (∀ k b, C.loadOp k b ≠ .other) →
        (feed C S store streaming st b).1 ≠ .crashed) := by
  constructor
  · unfold feed
    generalize receiveOp C true .unknown b = z
    obtain ⟨n, g⟩ := z
    cases g with
    | null => simp
    | escapes => simp
    | some op =>
      dsimp only
      rw [Got.some.injEq, ← serve_stop (S := S) (store := store) (streaming := streaming) (st := st)]
      split <;> simp_all
  · intro hh hb hc
    have hesc : (receiveOp C true .unknown b).2 ≠ .escapes := by
      unfold receiveOp receiveHeader
      have h1 := hh b
      cases hl : C.loadHeader b with
      | ok x rest =>
        obtain ⟨v, k⟩ := x
        simp only [Bool.true_eq_false, false_and, if_false, ne_eq, not_true_eq_false]
        by_cases hv : v = C.version
        · simp only [hv, not_true_eq_false, if_false]
          by_cases hk : k = .unknown
          · simp [hk]
          · simp only [hk, if_false]
            have h2 := hb k rest
            cases hl2 : C.loadOp k rest with
            | ok op rest' => simp
            | runtime => simp
            | invalid => simp
            | other => exact absurd hl2 h2
        · simp [hv]
      | runtime => simp
      | invalid => exact absurd hl h1.1
      | other => exact absurd hl h1.2
    unfold feed at hc
    generalize receiveOp C true .unknown b = z at hc hesc
    obtain ⟨n, g⟩ := z
    cases g with
    | null => simp at hc
    | escapes => exact hesc rfl
    | some op =>
      dsimp only at hc
      split at hc <;> simp at hc

/-- **C112** (messages are read as they were sent).  An operation, a response or a package that was sent is received as such,
and the bytes counted by the two channels are the same. -/
theorem C112_messages {C : Codec P Q R} (hC : C.Ok) :
    (∀ op : Op Q, op.fits → ∀ expected, expected = .unknown ∨ expected = op.kind →
      receiveOp C true expected (encOp C op) = ((encOp C op).length, .some op)) ∧
    (∀ r : Resp P, r.fits → ∀ expected, expected = .unknown ∨ expected = r.kind →
      receiveResp C expected (encMsg C (.resp r)) = ((encMsg C (.resp r)).length, .some r)) ∧
    (∀ op : Op Q, op.fits → ∀ expected, expected ≠ .unknown → expected ≠ op.kind →
      (receiveOp C true expected (encOp C op)).2 = .null) ∧
    (∀ r, receivePart C (encMsg C (.part r)) = ((encMsg C (.part r)).length, .some r)) := by
  refine ⟨fun op h e he => ?_, fun r h e he => ?_, fun op h e he he' => ?_, receivePart_enc hC⟩
  · have : ¬ (e ≠ .unknown ∧ e ≠ op.kind) := by rcases he with he | he <;> simp [he]
    simp [receiveOp, receiveHeader, encOp, hC.header, hC.op op h, Op.kind_ne, this]
  · have : ¬ (e ≠ .unknown ∧ e ≠ r.kind) := by rcases he with he | he <;> simp [he]
    simp [receiveResp, receiveHeader, encMsg, hC.header, hC.resp r h, Resp.kind_ne, this]
  · simp [receiveOp, receiveHeader, encOp, hC.header, he, he']

/-- **C112** (finding: a data base that is not stripped).  For a data base that still has its key the constructor of the
sender has no defined behaviour, even if the key is the one it was given. -/
theorem C112_unstripped [DecidableEq Key] (stripped : Db → Bool) (keyOf : Db → Key) (db : Db) (key : Key)
    (h : makeSingle stripped keyOf (some db) key ≠ .undefined) :
    stripped db = true ∧ makeSingle stripped keyOf (some db) key = .ok ⟨some db, key⟩ := by
  by_cases hs : stripped db = true
  · exact ⟨hs, by simp [makeSingle, hs]⟩
  · exact absurd (by simp [makeSingle, hs]) h

end Psi.Session
