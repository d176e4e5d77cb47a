import Verif.Props.C28_Password
import Verif.Props.C82_ErrorText

/-!
# C83 — printing values of the connector does not reveal the password

It does: the options, and with them connections and what pools hand out, print it as it is.
-/

namespace Verif

/-- the text of the options up to the password. -/
def optionsHead (special : Char → Bool) (user : Str) : Str :=
  "ConnectionOptions { user: ".toList ++ debugStr special user ++ ", password: ".toList

theorem options_text (special : Char → Bool) (stream timeout : Str) (o : Options) :
    ∃ rest, ∀ pw, ({ o with password := pw } : Options).debug special stream timeout =
      optionsHead special o.user ++ (debugStr special pw ++ rest) := by
  have e1 : "ConnectionOptions { user: ".toList = "ConnectionOptions".toList ++ " { ".toList ++
      ("user".toList ++ ": ".toList) := by decide
  have e2 : ", password: ".toList = ", ".toList ++ ("password".toList ++ ": ".toList) := by decide
  refine ⟨", ".toList ++ (commaSep ([("db_name".toList, debugOpt (o.dbName.map (debugStr special))),
     ("connection".toList, stream),
     ("max_allowed_packet".toList, debugOpt (o.maxAllowedPacket.map decStr)),
     ("timeout".toList, timeout),
     ("allow_cleartext_password".toList, debugBool o.allowCleartext),
     ("auth_plugin".toList, debugOpt (o.authPlugin.map AuthPlugin.debug)),
     ("server_key".toList, debugOpt (o.serverKey.map PublicKey.debug))].map
       fun f => f.1 ++ ": ".toList ++ f.2) ++ " }".toList), fun pw => ?_⟩
  unfold optionsHead
  rw [e1, e2]
  simp only [Options.debug, debugStruct, List.map_cons, List.map_nil, commaSep, List.append_assoc]

/-- reading a text of the options: the password. -/
def Spec.passwordOf (s : Str) : Option Str := do
  let s ← Spec.expect "ConnectionOptions { user: ".toList s
  let (_, s) ← Spec.literal s
  let s ← Spec.expect ", password: ".toList s
  let (pw, _) ← Spec.literal s
  pure pw

/-- Property as it should be: what is printed does not depend on the password.  Refuted for the options:
whatever they are, the password can be read from their text. -/
theorem C83_options_violated (special : Char → Bool) (stream timeout : Str) (o : Options) :
    Spec.passwordOf (o.debug special stream timeout) = some o.password := by
  obtain ⟨rest, h⟩ := options_text special stream timeout o
  have := h o.password
  rw [show ({ o with password := o.password } : Options) = o from rfl] at this
  rw [this]
  unfold optionsHead Spec.passwordOf
  rw [List.append_assoc, List.append_assoc, expect_self]
  dsimp only [Option.bind_eq_bind, Option.bind_some]
  rw [C82_literal]
  dsimp only [Option.bind_eq_bind, Option.bind_some]
  rw [expect_self]
  dsimp only [Option.bind_eq_bind, Option.bind_some]
  rw [C82_literal]
  rfl

theorem debugStr_inj {special : Char → Bool} {s s' r r' : Str}
    (h : debugStr special s ++ r = debugStr special s' ++ r') : s = s' ∧ r = r' := by
  have h1 := C82_literal special s r
  rw [h, C82_literal] at h1
  injection h1 with h1
  exact ⟨(congrArg Prod.fst h1).symm, (congrArg Prod.snd h1).symm⟩

/-- Refuted for a connection: its text contains the password as a string literal, and the texts for two
passwords differ, whatever else is printed. -/
theorem C83_connection_violated (special : Char → Bool) (caps : UInt32 → Str) (stream timeout : Str) (c : Conn) :
    (∃ a b, c.debug special caps stream timeout =
      a ++ ", password: ".toList ++ debugStr special c.options.password ++ b) ∧
    ∀ pw, ({ c with options := { c.options with password := pw } } : Conn).debug special caps stream timeout
      = c.debug special caps stream timeout → pw = c.options.password := by
  obtain ⟨rest, h⟩ := options_text special stream timeout c.options
  have h0 := h c.options.password
  rw [show ({ c.options with password := c.options.password } : Options) = c.options from rfl] at h0
  refine ⟨?_, fun pw hp => ?_⟩
  · unfold Conn.debug debugStruct
    rw [h0]
    unfold optionsHead
    refine ⟨"Connection".toList ++ " { ".toList ++ ("seq_id".toList ++ (": ".toList ++ (decStr c.seqId.toNat ++
      (", ".toList ++ ("data".toList ++ (": ".toList ++ (c.data.debug caps ++ (", ".toList ++ ("options".toList ++
      (": ".toList ++ ("ConnectionOptions { user: ".toList ++ debugStr special c.options.user))))))))))),
      rest ++ " }".toList, ?_⟩
    simp only [List.map_cons, List.map_nil, commaSep, List.append_assoc]
  · unfold Conn.debug debugStruct at hp
    dsimp only at hp
    rw [h pw, h0] at hp
    simp only [List.map_cons, List.map_nil, commaSep, List.append_assoc, List.append_cancel_left_eq] at hp
    exact (debugStr_inj hp).1

/-- What holds: on a stream that is not secure, with cleartext passwords not allowed, the error of a
failed `connect` prints the same for two passwords that lead to the same challenge responses and
encryptions, and so do the data of an established connection. -/
theorem C83_errors_partial (special : Char → Bool) (protocol : ProtocolError → Str) (caps : UInt32 → Str)
    (cr : Crypto) (alnum : Char → Bool)
    (fp : FloatParse) (o : Options) (p₁ p₂ : Str) (rx : List Rx) (wf : List (Option (Nat × IoKind)))
    (hsec : o.secure = false) (hclear : o.allowCleartext = false) (hs : SameAnswers cr p₁ p₂) :
    (∀ e c, connect cr alnum fp (Conn.initial { o with password := p₁ } rx wf) = (.err e, c) →
      ∃ e' c', connect cr alnum fp (Conn.initial { o with password := p₂ } rx wf) = (.err e', c') ∧
        e'.debug special protocol = e.debug special protocol) ∧
    ((connect cr alnum fp (Conn.initial { o with password := p₁ } rx wf)).2.data.debug caps
      = (connect cr alnum fp (Conn.initial { o with password := p₂ } rx wf)).2.data.debug caps) := by
  have hsim : Sim o p₁ p₂ (connect cr alnum fp) :=
    Sim.bind (Sim.login hs hclear hsec alnum) fun _ => Sim.readSettings fp
  obtain ⟨h1, h2⟩ := hsim (Conn.initial { o with password := p₁ } rx wf)
    (Conn.initial { o with password := p₂ } rx wf) ⟨rfl, rfl⟩
  refine ⟨fun e c h => ?_, ?_⟩
  · rw [h] at h1
    exact ⟨e, (connect cr alnum fp (Conn.initial { o with password := p₂ } rx wf)).2,
      Prod.ext h1.symm rfl, rfl⟩
  · rw [h2.2]

/-- `println!("{options:?}")`. -/
theorem C83_example_violated :
    Options.debug (fun _ => false) "()".toList "10s".toList
      { user := "u".toList, password := "hun\"ter2".toList, dbName := some "zoo".toList, maxAllowedPacket := none,
        allowCleartext := false, authPlugin := some .sha2, serverKey := none, secure := false } =
      ("ConnectionOptions { user: \"u\", password: \"hun\\\"ter2\", db_name: Some(\"zoo\"), connection: (), " ++
       "max_allowed_packet: None, timeout: 10s, allow_cleartext_password: false, auth_plugin: Some(Sha2), " ++
       "server_key: None }").toList := by
  decide +kernel

-- the data of a connection
example : ConnData.debug (fun _ => "..".toList)
      { id := 7, isMariadb := true, version := (10, 11, 6), capabilities := 0, nonce := [1, 2],
        serverKey := some { modulus := 15, exponent := 3 }, authPlugin := .native, authSwitched := false,
        maxAllowedPacket := 4194304 } =
      ("ConnectionData { id: 7, is_mariadb: true, version: (10, 11, 6), capabilities: .., nonce: [1, 2], " ++
       "server_key: Some(PublicKey { modulus: 15, exponent: 3 }), auth_plugin: Native, auth_switched: false, " ++
       "max_allowed_packet: 4194304 }").toList := by
  decide +kernel

end Verif
