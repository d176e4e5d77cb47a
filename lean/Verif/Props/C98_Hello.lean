import Verif.Props.C98_Program
import Verif.Model.Features

/-!
# C98 — examples/hello_world.rs

The program itself: its `unwrap`s, its model, its options.
-/

namespace Verif

open Spec (SqlServer SqlState Tables Row Rec Database Insertable InsertedAll shape HasField)
open Spec.SqlServer (Stores withRow meanings)

/-- `Result::unwrap`: an error is a panic. -/
def unwrap {α : Type} (x : M α) : M α := fun c =>
  match x c with
  | (.err _, c') => (.panic, c')
  | r => r

theorem unwrap_ok {α : Type} {x : M α} {c c' : Conn} {a : α} (h : x c = (.ok a, c')) : unwrap x c = (.ok a, c') := by
  unfold unwrap
  rw [h]

theorem unwrap_err {α : Type} {x : M α} {c c' : Conn} {e : Error} (h : x c = (.err e, c')) :
    unwrap x c = (.panic, c') := by
  unfold unwrap
  rw [h]

theorem unwrap_panic {α : Type} {x : M α} {c c' : Conn} (h : x c = (.panic, c')) : unwrap x c = (.panic, c') := by
  unfold unwrap
  rw [h]

theorem unwrap_bind {α β : Type} (x : M α) (f : α → M β) :
    unwrap (x >>= f) = unwrap x >>= fun a => unwrap (f a) := by
  funext c
  rcases h : x c with ⟨r, c'⟩
  cases r with
  | ok a =>
    rw [SM.bind_of_ok (unwrap_ok h)]
    unfold unwrap
    rw [SM.bind_of_ok h]
  | err e => rw [SM.bind_of_panic (unwrap_err h), unwrap_err (SM.bind_of_err h)]
  | panic => rw [SM.bind_of_panic (unwrap_panic h), unwrap_panic (SM.bind_of_panic h)]

theorem unwrap_pure {α : Type} (a : α) : unwrap (pure a : M α) = pure a := rfl

namespace Hello

/-- hello_world.rs 5-11. -/
structure User where
  id : UInt32
  name : Str
  email : Option Str
  deriving DecidableEq, Repr

/-- what the derive macros make of a `User`. -/
def User.model (u : User) : ModelVal :=
  .mk "user".toList "id".toList true
    [("id".toList, .ok (intoValue .u32 u.id)), ("name".toList, .ok (intoValue .string u.name)),
     ("email".toList, .ok (optIntoValue .string u.email))] [] .nil

def userDef : ModelDef := .mk "user".toList "id".toList ["id".toList, "name".toList, "email".toList] [] .nil

/-- the fields of a `User`. -/
inductive Part where
  | id (x : UInt32)
  | name (x : Str)
  | email (x : Option Str)
  deriving DecidableEq, Repr

/-- the conversions `FromQueryResult` uses: by the types of the fields. -/
def conv (f : List Str × Str) (v : Value) : Out ParseError Part :=
  if f.2 = "id".toList then (tryInto .u32 v).map' .id
  else if f.2 = "name".toList then (tryInto .string v).map' .name
  else (tryIntoOpt .string v).map' .email

/-- the struct with these fields. -/
def User.of (o : Obj Part) : Option User :=
  match o.lookup ([], "id".toList), o.lookup ([], "name".toList), o.lookup ([], "email".toList) with
  | some (.id i), some (.name n), some (.email e) => some { id := i, name := n, email := e }
  | _, _, _ => none

/-- hello_world.rs 32-36. -/
def create : Str := ("CREATE TEMPORARY TABLE `user` (\n            `id` INT UNSIGNED NOT NULL AUTO_INCREMENT PRIMARY KEY,\n" ++
  "            `name` VARCHAR(255) NOT NULL,\n            `email` VARCHAR(255)\n        )").toList

def foo : User := { id := 0, name := "foo".toList, email := some "foo@example.com".toList }
def bar : User := { id := 0, name := "bar".toList, email := none }

/-- hello_world.rs 16-26: the options, with what the environment says. -/
def options (user password : Str) : Options :=
  { Options.defaultIn .full false with user := user, password := password, dbName := some "hello_world".toList }

/-- hello_world.rs 13-73 `main`; the users that are printed. -/
def main (cr : Crypto) (alnum : Char → Bool) (fp : FloatParse) : M (List (Obj Part)) := do
  unwrap (connect cr alnum fp)
  let _ ← unwrap (executeQuery create)
  let _ ← unwrap foo.model.intoActive.insert
  let _ ← unwrap bar.model.intoActive.insert
  let rs ← unwrap (query (buildQuery userDef))
  let users ← unwrap (rs.collect (textReader fp (buildModel conv userDef)))
  unwrap disconnect
  pure users.2

theorem main_eq (cr : Crypto) (alnum : Char → Bool) (fp : FloatParse) :
    main cr alnum fp =
      (unwrap (firstSession cr alnum fp create [foo.model, bar.model] userDef conv) >>= fun r => pure r.2) := by
  unfold main firstSession insertAll insertAll insertAll
  simp only [unwrap_bind, unwrap_pure, SM.bind_assoc]
  rfl

/-- a server as far as this table is concerned: `id` is its auto increment column and holds numbers of 32 bits; numbers
are compared as numbers. -/
structure Serves (S : SqlServer) : Prop where
  auto : S.auto "user".toList = some "id".toList
  key : ∀ id, S.keyDatum "user".toList id = .int 4 true id.toNat
  eq : ∀ w u x w' u' y, S.eq (.int w u x) (.int w' u' y) = decide (x = y)
  accepts : ∀ rows rows', S.refuses rows rows' = none

theorem user_insertable {S : SqlServer} (h : Serves S) (u : User) (hn : (utf8 u.name).length < 2 ^ 64)
    (he : ∀ e, u.email = some e → (utf8 e).length < 2 ^ 64) : Insertable S userDef u.model := by
  refine ⟨?_, ?_, ?_, ?_⟩
  · simp [User.model, userDef, shape, Spec.shapeRefs]
  · simp only [User.model, Spec.KeysFit, Spec.KeysFitRefs, if_true, and_true]
    refine ⟨h.auto, ?_, fun id => ?_⟩
    · simp [ModelVal.intoActive, refsIntoActive, Spec.setNames, Spec.refNames]
    · rw [h.key, Spec.meaning, h.eq]
      simp
  · simp only [User.model, ModelVal.intoActive, refsIntoActive, Spec.Writable, Spec.WritableRefs, and_true]
    refine ⟨by decide, ?_, ?_, ?_, ?_, ?_⟩
    · simp [Spec.setNames, Spec.refNames]
    · simp [Spec.setNames, Spec.refNames]
    · simp [Spec.setNames, Spec.refNames]
    · intro f hf x hx
      simp only [List.map_cons, List.map_nil, List.mem_cons, List.not_mem_nil, or_false] at hf
      rcases hf with rfl | rfl | rfl
      · simp at hx
      · rw [if_neg (by decide)] at hx
        cases hx
        refine ⟨_, rfl, fun b hb => ?_⟩
        cases hb
        exact hn
      · rw [if_neg (by decide)] at hx
        cases hx
        refine ⟨_, rfl, fun b hb => ?_⟩
        cases hu : u.email with
        | none => rw [hu] at hb; cases hb
        | some e =>
          rw [hu] at hb
          cases hb
          exact he e hu
    · intro s hs
      cases hs
  · simp [User.model, ModelVal.intoActive, refsIntoActive, Spec.allDistinct, Spec.allDistinctRefs,
      Spec.ActiveModel.Distinct]

theorem userDef_sound : Spec.ModelDef.Sound userDef := by
  simp only [userDef, Spec.ModelDef.Sound, Spec.RefDefs.Sound, and_true]
  refine ⟨?_, ?_, ?_, ?_, ?_, ?_⟩ <;> decide

/-- the row of a user. -/
theorem kept_row {S : SqlServer} (h : Serves S) {rows : Tables} {u : User} {id : UInt64} {r : Rec}
    (hk : Kept S rows userDef (u.model, id) r) :
    r "id".toList = .int 4 true id.toNat ∧ r "name".toList = Spec.meaning (intoValue .string u.name) ∧
      r "email".toList = Spec.meaning (optIntoValue .string u.email) := by
  have plain : ∀ c v, (c, Out.ok v) ∈ [("id".toList, (Out.ok (intoValue .u32 u.id) : Out SerializeError Value)),
      ("name".toList, .ok (intoValue .string u.name)), ("email".toList, .ok (optIntoValue .string u.email))] →
      c ≠ "id".toList → r c = Spec.meaning v := by
    intro c v hm hc
    obtain ⟨r', h1, h2⟩ := hk.stored [] c (some v) (.plain hm (fun h => hc h.2))
    cases h1
    exact h2
  refine ⟨?_, plain _ _ (by simp) (by decide), plain _ _ (by simp) (by decide)⟩
  rw [← h.key]
  refine hk.generated _ h.auto ?_
  simp [User.model, ModelVal.intoActive, refsIntoActive, Spec.setNames, Spec.refNames]

/-- what its columns are read as. -/
theorem conv_user {u : User} {c : Str} {v : Value} {id : UInt64} :
    (c = "id".toList → Spec.meaning v = .int 4 true id.toNat → ∃ n : UInt32, n.toNat = id.toNat ∧
      conv ([], c) v = .ok (.id n)) ∧
    (c = "name".toList → Spec.meaning v = Spec.meaning (intoValue .string u.name) →
      conv ([], c) v = .ok (.name u.name)) ∧
    (c = "email".toList → Spec.meaning v = Spec.meaning (optIntoValue .string u.email) →
      conv ([], c) v = .ok (.email u.email)) := by
  refine ⟨?_, ?_, ?_⟩
  · rintro rfl hv
    cases v <;> simp [Spec.meaning, Spec.mkTime] at hv
    rename_i n
    exact ⟨n, by exact_mod_cast hv, rfl⟩
  · rintro rfl hv
    cases v <;> simp [Spec.meaning, Spec.mkTime, intoValue] at hv
    subst hv
    show (Out.ofOption _ (fromUtf8 (utf8 u.name))).map' _ = _
    rw [fromUtf8_utf8]
    rfl
  · rintro rfl hv
    cases he : u.email with
    | none =>
      rw [he] at hv
      cases v <;> simp [Spec.meaning, Spec.mkTime, optIntoValue] at hv
      rfl
    | some e =>
      rw [he] at hv
      cases v <;> simp [Spec.meaning, Spec.mkTime, optIntoValue, intoValue] at hv
      subst hv
      show ((Out.ofOption _ (fromUtf8 (utf8 e))).map' some).map' _ = _
      rw [fromUtf8_utf8]
      rfl

theorem has_field {p : List Str} {c : Str} (h : HasField userDef p c) :
    p = [] ∧ (c = "id".toList ∨ c = "name".toList ∨ c = "email".toList) := by
  cases h with
  | own h => exact ⟨rfl, by simpa [userDef, ModelDef.cols] using h⟩
  | sub h => cases h

theorem lookup_of {X : Type} {o : Obj X} (hn : (o.map Prod.fst).Nodup) {k : List Str × Str} {x : X} (h : (k, x) ∈ o) :
    o.lookup k = some x := by
  induction o with
  | nil => cases h
  | cons y o ih =>
    rw [List.map_cons, List.nodup_cons] at hn
    obtain ⟨k', x'⟩ := y
    rw [List.lookup_cons]
    rcases List.mem_cons.1 h with h | h
    · cases h
      simp
    · have : (k == k') = false := by
        rw [beq_eq_false_iff_ne]
        intro hk
        exact hn.1 (List.mem_map.2 ⟨_, h, hk⟩)
      rw [this]
      exact ih hn.2 h


/-- an object that is the model of a user is the user, with the id that was reported. -/
theorem of_model {S : SqlServer} (h : Serves S) {u : User} {id : UInt64} {o : Obj Part}
    (ho : IsModel S conv userDef (u.model, id) o) : ∃ n : UInt32, n.toNat = id.toNat ∧
      User.of o = some { u with id := n } := by
  obtain ⟨v, y, k1, k2, k3⟩ := ho.key (.ulong id) (.assigned (by simp)) (.own (by simp [userDef, ModelDef.cols, ModelDef.primary]))
  have hid : ∃ n : UInt32, n.toNat = id.toNat ∧ y = .id n := by
    have e : conv ([], "id".toList) v = .ok y := k2
    cases v <;> simp [conv, tryInto, Out.map'] at e
    rename_i n
    rw [Spec.meaning, Spec.meaning, h.eq] at k1
    refine ⟨n, ?_, e.symm⟩
    have := of_decide_eq_true k1
    exact_mod_cast this.symm
  obtain ⟨n, n1, rfl⟩ := hid
  have hname : (([], "name".toList), Part.name u.name) ∈ o := by
    obtain ⟨v', x, m1, m2, m3⟩ := ho.returns.2.2 [] "name".toList (intoValue .string u.name)
      (.plain (by simp) (by decide))
    rw [(conv_user (id := id)).2.1 rfl m1] at m2
    cases m2
    exact m3
  have hemail : (([], "email".toList), Part.email u.email) ∈ o := by
    obtain ⟨v', x, m1, m2, m3⟩ := ho.returns.2.2 [] "email".toList (optIntoValue .string u.email)
      (.plain (by simp) (by decide))
    rw [(conv_user (id := id)).2.2 rfl m1] at m2
    cases m2
    exact m3
  refine ⟨n, n1, ?_⟩
  unfold User.of
  rw [lookup_of ho.once (show (([], "id".toList), Part.id n) ∈ o from k3), lookup_of ho.once hname,
    lookup_of ho.once hemail]

/-- the statement of the query and the rows it denotes. -/
theorem query_means : ∃ ts q, Spec.tokens (buildQuery userDef) = some ts ∧ Spec.parseSelect ts = some q ∧
    q.items = [("user".toList, "id".toList), ("user".toList, "name".toList), ("user".toList, "email".toList)] ∧
    ∀ db : Database, db.select q = (db.rows "user".toList).map fun r =>
      [r "id".toList, r "name".toList, r "email".toList] := by
  refine ⟨_, _, rfl, rfl, rfl, fun db => ?_⟩
  show ((db.rows "user".toList).flatMap fun r => [[r "id".toList, r "name".toList, r "email".toList]]) = _
  exact List.map_eq_flatMap.symm

end Hello

open Hello in
/-- **C98** for examples/hello_world.rs: on a server with an empty table, the program ends without a panic if the user
and password of the environment are right, and it prints `foo` and `bar`, each once, with the ids under which the server
stored them.  If the login is refused, the program panics. -/
theorem C98_hello (L : Spec.LoginServer) (user password : Str) (h : Hashes) (code : UInt16)
    (state msg : Str) (e : Nat) (seed : Bytes) (alnum : Char → Bool) (fp : FloatParse)
    (hseed : seed.length = 20)
    (hc : Compatible L (options user password) h code state msg e) (hg : L.greeting.Usual alnum)
    (hd : ∀ c, 48 ≤ c.toNat → c.toNat ≤ 57 → alnum c = true) (hdot : alnum '.' = false)
    (hu : ∀ b ∈ utf8 user, b ≠ 0) (hclear : L.greeting.plugin ≠ .clear)
    (limit : Nat) (answer : List Bytes) (hlimit : LimitAnswer fp limit answer)
    (S : SqlServer) (hS : Fair S) (h41 : S.protocol41 = L.greeting.caps.toNat.testBit 9) (hserves : Serves S)
    (st : SqlState) (hempty : st.rows "user".toList = []) (a l : UInt64) (status warnings : UInt16) (okMsg : Str)
    (hok : (utf8 okMsg).length < 2 ^ 64) :
    ∃ messages sent received accepted cmds sent2 st',
      L.talk .login (UInt8.ofNat (Spec.frameCount L.greeting.encode)) messages = some (sent, received, accepted) ∧
      (utf8 user = L.user ∧ utf8 password = L.password → accepted = true) ∧
      S.talk st cmds = some (st', sent2, Spec.commands cmds) ∧
      let start := opening L (options user password) sent answer create
        (Spec.okPacket a.toNat l.toNat status.toNat warnings.toNat okMsg) ++ rxOf sent2
      (accepted = false → ∀ tail, (main (Crypto.real h seed) alnum fp
          (Conn.initial (options user password) (start ++ tail) [])).1 = .panic) ∧
      (accepted = true → ∃ log id1 id2, InsertedAll [foo.model, bar.model] log [id1, id2] ∧
        Stores S st.rows log st'.rows ∧
        ∀ (descs : List Spec.ColDesc) (cols : List Column) (rows : List (List Spec.Datum)) (ps : List Bytes)
          (status warnings : Nat) (r : List Rx), DescsAs descs cols →
          descs.map (fun d => (d.table, d.orgName)) = [("user".toList, "id".toList), ("user".toList, "name".toList),
            ("user".toList, "email".toList)] →
          rows.Perm ((st'.rows "user".toList).map fun r => [r "id".toList, r "name".toList, r "email".toList]) →
          TextRows fp cols rows ps →
          ∃ objs c n1 n2, main (Crypto.real h seed) alnum fp
              (Conn.initial (options user password) (start ++ (rxOf (Spec.framesAll
                (UInt8.ofNat (Spec.frameCount (0x03 :: utf8 (buildQuery userDef))))
                (Spec.resultSet descs ps status warnings)) ++ r)) []) = (.ok objs, c) ∧
            c.rx = r ∧
            c.tx = received ++ Spec.commands (([0x03 :: utf8 C57.sql] ++
                [0x03 :: utf8 create]) ++ cmds ++ [0x03 :: utf8 (buildQuery userDef), [0x01]]) ∧
            n1.toNat = id1.toNat ∧ n2.toNat = id2.toNat ∧
            (objs.map User.of).Perm [some { foo with id := n1 }, some { bar with id := n2 }]) := by
  have hm : ∀ mv ∈ [foo.model, bar.model], Insertable S userDef mv := by
    intro mv hmv
    simp only [List.mem_cons, List.not_mem_nil, or_false] at hmv
    rcases hmv with rfl | rfl
    · refine user_insertable hserves _ (by decide +kernel) fun e he => ?_
      cases he
      decide +kernel
    · exact user_insertable hserves _ (by decide +kernel) fun e he => nomatch he
  obtain ⟨ms, sent, received, accepted, cmds, sent2, st', k1, k2, k3, k4, k5⟩ := C98_session (X := Part) L
    (options user password) h code state msg e seed alnum fp hseed hc hg hd hdot hu
    (fun d hd => by
      cases hd
      decide +kernel) (fun hp => absurd hp hclear) limit answer hlimit S hS h41 userDef userDef_sound
    [foo.model, bar.model] hm st create a l status warnings okMsg hok
  refine ⟨ms, sent, received, accepted, cmds, sent2, st', k1, k2, k3, ?_, ?_⟩
  · intro hb tail
    have := k4 hb tail conv
    rw [main_eq]
    rcases hf : firstSession (Crypto.real h seed) alnum fp create [foo.model, bar.model] userDef conv
      (Conn.initial (options user password) (opening L (options user password) sent answer create
        (Spec.okPacket a.toNat l.toNat status.toNat warnings.toNat okMsg) ++ rxOf sent2 ++ tail) []) with ⟨x, c⟩
    rw [hf] at this
    simp only at this
    subst this
    rw [SM.bind_of_panic (unwrap_err hf)]
  · intro hb
    rcases k5 hb with ⟨_, _, _, _, _, _, _, _, e', _, _, _, _, hr, _⟩ | ⟨log, ids, i1, i2, i3, i4⟩
    · rw [hserves.accepts] at hr
      cases hr
    obtain ⟨id1, id2, rfl⟩ : ∃ id1 id2, ids = [id1, id2] := by
      match ids, i2 with
      | [x, y], _ => exact ⟨x, y, rfl⟩
    refine ⟨log, id1, id2, i1, i3, fun descs cols rows ps status' warnings' r d1 d2 d3 d4 => ?_⟩
    obtain ⟨ts, q, q1, q2, q3, q4⟩ := query_means
    obtain ⟨added, news, n1, n2, n3, n4⟩ := C97_stored S userDef userDef_sound _ hm i1 i3
    have hk := n3 st'.rows (Grows.refl _) trivial
    have hrows : st'.rows "user".toList = news := by
      have : st'.rows userDef.table = st.rows userDef.table ++ added := n1
      rw [(n4 rfl).1] at this
      exact this.trans (by rw [show st.rows userDef.table = [] from hempty]; rfl)
    obtain ⟨objs, c, g1, g2, g3, found, g4, g5, g6⟩ := i4 conv ts q descs cols rows ps status' warnings' r trivial q1 q2
      d1 (by
        have := congrArg List.length d2
        simp only [List.length_map, List.length_cons, List.length_nil] at this
        omega) (by rw [d2, q3]) (by rw [q4]; exact d3) d4 (by
        intro r hr p c v r' hf hfol hv
        rw [show st'.rows userDef.table = news from hrows] at hr
        obtain ⟨rfl, hcol⟩ := has_field hf
        cases hfol
        have row : ∃ u id, Kept S st'.rows userDef (User.model u, id) r := by
          cases hk with
          | cons a1 hk =>
            cases hk with
            | cons a2 hk =>
              cases hk
              simp only [List.mem_cons, List.not_mem_nil, or_false] at hr
              rcases hr with rfl | rfl
              · exact ⟨_, _, a1⟩
              · exact ⟨_, _, a2⟩
        obtain ⟨u, id, hku⟩ := row
        obtain ⟨r1, r2, r3⟩ := kept_row hserves hku
        rcases hcol with rfl | rfl | rfl
        · obtain ⟨n, _, hn⟩ := (conv_user (u := u) (id := id)).1 rfl (hv.trans r1)
          exact ⟨_, hn⟩
        · exact ⟨_, (conv_user (u := u) (id := id)).2.1 rfl (hv.trans r2)⟩
        · exact ⟨_, (conv_user (u := u) (id := id)).2.2 rfl (hv.trans r3)⟩)
    obtain ⟨old, o1, o2⟩ := g6 rfl
    rw [show st.rows userDef.table = [] from hempty] at o2
    cases o2
    cases g5 with
    | @cons _ f1 _ _ b1 g5 =>
      cases g5 with
      | @cons _ f2 _ _ b2 g5 =>
        cases g5
        obtain ⟨m1, u1, u2⟩ := of_model hserves b1
        obtain ⟨m2, u3, u4⟩ := of_model hserves b2
        refine ⟨objs, c, m1, m2, ?_, g2, g3, u1, u3, ?_⟩
        · rw [main_eq, SM.bind_of_ok (unwrap_ok g1)]
          rfl
        · have := o1.map User.of
          rw [List.nil_append, List.map_cons, List.map_cons, List.map_nil, u2, u4] at this
          exact this

/-! ### a concrete run -/

namespace Hello

/-- a server with the table, whose rows are always accepted. -/
def server : SqlServer := { C66.server with refuses := fun _ _ => none }

theorem server_serves : Serves server := by
  refine ⟨rfl, fun _ => rfl, fun w u x w' u' y => ?_, fun _ _ => rfl⟩
  show (x == y) = _
  rfl

theorem server_fair : Fair server := ⟨by decide, fun _ _ _ h => (nomatch h), fun _ _ _ h => (nomatch h)⟩

/-- the account of C63; the server has its password in the cache. -/
def login : Spec.LoginServer := C63.server .sha2 false true

def request (password : String) : Bytes :=
  handshakeResponse (firstResponse C63.hashes .sha2 (utf8 password.toList) login.greeting.challenge)
    (8, 0, 34) (utf8 "u".toList) (some (utf8 "hello_world".toList)) (some .sha2)
    (0xDFFFFFFF &&& (options "u".toList password.toList).capabilities) (UInt32.ofNat DEFAULT_MAX_ALLOWED_PACKET)

def cmds : List Bytes :=
  [0x16 :: utf8 "insert into `user` (`name`, `email`) values (?, ?)".toList,
   [23, 1, 0, 0, 0, 0, 1, 0, 0, 0, 0, 1, 253, 0, 253, 0] ++ 3 :: ascii "foo" ++ 15 :: ascii "foo@example.com",
   0x16 :: utf8 "insert into `user` (`name`, `email`) values (?, ?)".toList,
   [23, 2, 0, 0, 0, 0, 1, 0, 0, 0, 2, 1, 253, 0, 6, 0] ++ 3 :: ascii "bar"]

/-- what the server sends, the rows of the answer in another order than they were stored in. -/
def stream (password : String) : List Rx :=
  match login.talk .login 1 [request password], server.talk C66.empty cmds with
  | some (sent, _, _), some (_, sent2, _) =>
    opening login (options "u".toList password.toList) sent
        (Spec.resultSet [C64.limitColumn] [Spec.lenencStr (Spec.dec 67108864)] 2 0) create (Spec.okPacket 0 0 2 0 []) ++
      rxOf sent2 ++ rxOf (Spec.framesAll 1 (Spec.resultSet
        [{ C65.desc "user" "id" 3 with flags := 32 }, C65.desc "user" "name" 253, C65.desc "user" "email" 253]
        [C65.text ["42", "bar"] ++ [0xFB], C65.text ["41", "foo", "foo@example.com"]] 2 0))
  | _, _ => []

def run (password : String) : Out Error (List (Option User)) × Conn :=
  (do return (← main (Crypto.real C63.hashes C33.seed) C28.asciiAlnum C56.noFloats).map User.of)
    (Conn.initial (options "u".toList password.toList) (stream password) [])

/-- the program ends and prints both users; without a password it panics. -/
example : (run "hunter2").1 = .ok [some { id := 42, name := "bar".toList, email := none },
      some { id := 41, name := "foo".toList, email := some "foo@example.com".toList }] ∧
    (run "hunter2").2.rx = [] ∧ (run "").1 = .panic ∧
    (login.talk .login 1 [request ""]).map (·.2.2) = some false ∧
    (server.talk C66.empty cmds).map (fun x => C66.rowsOf x.1 "user" ["id", "name", "email"]) =
      some [[.int 4 true 41, .str (ascii "foo"), .str (ascii "foo@example.com")],
        [.int 4 true 42, .str (ascii "bar"), .null]] := by
  refine ⟨?_, ?_, ?_, ?_, ?_⟩ <;> decide +kernel

/-- the hypotheses about the login hold for this server. -/
example : Compatible login (options "u".toList "hunter2".toList) C63.hashes 1045 "28000".toList
    "Access denied".toList 65537 ∧ login.greeting.Usual C28.asciiAlnum ∧ login.greeting.plugin ≠ .clear ∧
    server.protocol41 = login.greeting.caps.toNat.testBit 9 := by
  refine ⟨⟨rfl, rfl, toy_length, fun x => ?_, ⟨_, rfl⟩, rfl, by decide, rfl, by decide, .inr rfl,
    by simp [login, C63.server], by simp [options, Options.defaultIn], .inl rfl, fun _ _ => ?_⟩, ?_, by decide,
    by decide⟩
  · simp [C63.hashes, toy_length]
  · exact ⟨⟨_, _, lucas_lehmer_sufficiency 521 (by simp) (by norm_num),
      lucas_lehmer_sufficiency 607 (by simp) (by norm_num), by decide +kernel, rfl, 65280, by decide +kernel⟩,
      by decide +kernel, by decide +kernel, by decide +kernel, .inr ⟨by decide +kernel, rfl⟩⟩
  · refine ⟨⟨by decide +kernel, by decide +kernel, by decide +kernel⟩, by decide +kernel,
      by decide +kernel, by decide +kernel, by decide +kernel,
      8, 0, 34, "-0ubuntu0.22.04.1".toList, by decide +kernel, fun x r hx => ?_⟩
    injection hx with h1 _
    subst h1
    decide +kernel

/-- hello_world.rs 4-11, as the derive macros see it. -/
def item : Item where
  attrs := [.other, .ours (some [C70ex.kv "table" "user", C70ex.kv "primary" "id", C70ex.kv "auto_increment" "true"])]
  data := .named [⟨C70ex.nm "id", C70ex.ty ["u32"]⟩, ⟨C70ex.nm "name", C70ex.ty ["String"]⟩,
    ⟨C70ex.nm "email", .path (.mk ["Option".toList] (some (.mk ["String".toList] none)))⟩]

/-- the macros make of it the definition used here. -/
example : (Decl.mk item .nil).queryDef C70ex.rules = some userDef := by
  with_unfolding_all rfl

end Hello

end Verif
