import Verif.Model.Debug
import Verif.Proofs.SqlTokens
import Verif.Props.C77_AnyState
import Verif.Spec.Debug

/-!
# C82 — the text of an error says exactly what the server said
-/

namespace Verif

/-! ### string literals -/

theorem hexDigit_read (d : Nat) (h : d < 16) :
    Spec.hexDigitVal (hexDigit d) = some d ∧ hexDigit d ≠ '}' := by
  have : ∀ d < 16, Spec.hexDigitVal (hexDigit d) = some d ∧ hexDigit d ≠ '}' := by decide
  exact this d h

theorem hexUntil_hexStr (n : Nat) : ∀ (acc : Nat) (r : Str),
    Spec.hexUntil acc (hexStr n ++ r) = Spec.hexUntil (acc * 16 ^ (hexStr n).length + n) r := by
  induction n using Nat.strongRecOn with
  | _ n ih =>
    intro acc r
    rw [hexStr]
    split
    · rename_i h
      obtain ⟨h1, h2⟩ := hexDigit_read n h
      rw [List.singleton_append, Spec.hexUntil, if_neg h2, h1]
      simp [Nat.mul_comm]
    · rename_i h
      obtain ⟨h1, h2⟩ := hexDigit_read (n % 16) (by omega)
      rw [List.append_assoc, ih (n / 16) (by omega), List.singleton_append, Spec.hexUntil, if_neg h2, h1]
      dsimp only [Option.bind_some]
      congr 1
      rw [List.length_append, List.length_singleton, Nat.pow_succ, Nat.mul_add]
      have : 16 * (n / 16) + n % 16 = n := by omega
      rw [Nat.add_assoc, this, ← Nat.mul_assoc, Nat.mul_comm 16, Nat.mul_assoc, Nat.mul_comm 16]
      

theorem literalN_char (special : Char → Bool) (c : Char) (n : Nat) (r : Str) :
    Spec.literalN (n + 1) (debugChar special c ++ r) = (Spec.literalN n r).map fun q => (c :: q.1, q.2) := by
  unfold debugChar
  by_cases h1 : c = '\x00'
  · subst h1; rfl
  rw [if_neg h1]
  by_cases h2 : c = '\t'
  · subst h2; rfl
  rw [if_neg h2]
  by_cases h3 : c = '\r'
  · subst h3; rfl
  rw [if_neg h3]
  by_cases h4 : c = '\n'
  · subst h4; rfl
  rw [if_neg h4]
  by_cases h5 : c = '\\'
  · subst h5; rfl
  rw [if_neg h5]
  by_cases h6 : c = '"'
  · subst h6; rfl
  rw [if_neg h6]
  split
  · rw [List.append_assoc, List.append_assoc]
    show Spec.literalN (n + 1) ('\\' :: 'u' :: '{' :: (hexStr c.toNat ++ (['}'] ++ r))) = _
    rw [Spec.literalN.eq_def]
    dsimp only
    rw [if_neg (by decide), if_pos rfl]
    show (Spec.hexUntil 0 (hexStr c.toNat ++ (['}'] ++ r))).bind _ = _
    rw [hexUntil_hexStr, List.singleton_append, Spec.hexUntil, if_pos rfl]
    simp
  · rw [List.singleton_append, Spec.literalN.eq_def]
    dsimp only
    rw [if_neg h6, if_neg h5]

theorem debugChar_length (special : Char → Bool) (c : Char) : 1 ≤ (debugChar special c).length := by
  unfold debugChar
  repeat' split
  all_goals simp

theorem literalN_body (special : Char → Bool) (s r : Str) (n : Nat)
    (hn : (s.flatMap (debugChar special)).length < n) :
    Spec.literalN n (s.flatMap (debugChar special) ++ '"' :: r) = some (s, r) := by
  induction s generalizing n with
  | nil =>
    cases n with
    | zero => simp at hn
    | succ n => rfl
  | cons c s ih =>
    cases n with
    | zero => simp at hn
    | succ n =>
      have := debugChar_length special c
      rw [List.flatMap_cons, List.length_append] at hn
      rw [List.flatMap_cons, List.append_assoc, literalN_char, ih n (by omega)]
      rfl

/-- **C82** (strings): whatever a string contains (quotes, backslashes, line ends, braces, control
characters), its text is one string literal for it, and what follows the text follows the literal. -/
theorem C82_literal (special : Char → Bool) (s rest : Str) :
    Spec.literal (debugStr special s ++ rest) = some (s, rest) := by
  unfold debugStr
  rw [List.cons_append, Spec.literal, List.append_assoc, List.singleton_append]
  exact literalN_body special s rest _ (by simp)

/-! ### errors -/

theorem expect_self (p s : Str) : Spec.expect p (p ++ s) = some s := by
  unfold Spec.expect
  rw [if_pos (by simp), List.drop_left]

theorem number_decStr (n : Nat) (s : Str) (hs : ∀ d ∈ s.head?, Spec.isDigit d = false) :
    Spec.number (decStr n ++ s) = some (n, s) := by
  obtain ⟨h1, h2, h3⟩ := numVal_decStr n
  obtain ⟨t1, t2⟩ := takeWhile_split Spec.isDigit (decStr n) s h3 hs
  unfold Spec.number
  rw [t1, t2, if_neg h2, h1]

/-- **C82** (errors): the text of an error of the server has exactly one reading: its code, its state
if it has one, and its message, whatever they contain. -/
theorem C82_error (special : Char → Bool) (protocol : ProtocolError → Str) (code : UInt16)
    (state : Option Bytes) (msg : Str) :
    Spec.readError ((Error.server (.error code state msg)).debug special protocol)
      = some (code.toNat, stateStr state, msg) := by
  have e1 : "Server(Error(ErrorPacket { code: ".toList = "Server".toList ++ ['('] ++ ("Error".toList ++ ['('] ++
    ("ErrorPacket".toList ++ " { ".toList ++ ("code".toList ++ ": ".toList))) := by decide
  have e2 : ", message: ".toList = ", ".toList ++ ("message".toList ++ ": ".toList) := by decide
  have e3 : ", state: ".toList = ", ".toList ++ ("state".toList ++ ": ".toList) := by decide
  have e4 : " }))".toList = " }".toList ++ ([')'] ++ [')']) := by decide
  have hd : ∀ (w : Str), ∀ d ∈ (", message: ".toList ++ w).head?, Spec.isDigit d = false := by
    intro w d hd
    cases hd
    decide
  have hd' : ∀ (w : Str), ∀ d ∈ (", state: ".toList ++ w).head?, Spec.isDigit d = false := by
    intro w d hd
    cases hd
    decide
  unfold Spec.readError
  cases hs : stateStr state with
  | none =>
    have t : (Error.server (.error code state msg)).debug special protocol
        = "Server(Error(ErrorPacket { code: ".toList ++ (decStr code.toNat ++ (", message: ".toList ++
            (debugStr special msg ++ " }))".toList))) := by
      rw [e1, e2, e4]
      simp only [Error.debug, ErrPacket.debug, hs, debugTuple, debugStruct, commaSep, List.map_cons,
        List.map_nil, List.append_nil, List.cons_append, List.nil_append, List.append_assoc]
    have h0 : Spec.expect ", state: ".toList (", message: ".toList ++ (debugStr special msg ++ " }))".toList))
        = none := by
      unfold Spec.expect
      rw [if_neg]
      simp [List.isPrefixOf]
    rw [t, expect_self]
    dsimp only [Option.bind_eq_bind, Option.bind_some]
    rw [number_decStr _ _ (hd _)]
    dsimp only [Option.bind_eq_bind, Option.bind_some]
    rw [h0]
    dsimp only [Option.bind_eq_bind, Option.bind_some]
    rw [expect_self]
    dsimp only [Option.bind_eq_bind, Option.bind_some]
    rw [C82_literal]
    dsimp only [Option.bind_eq_bind, Option.bind_some]
    rw [if_pos rfl]
  | some st =>
    have t : (Error.server (.error code state msg)).debug special protocol
        = "Server(Error(ErrorPacket { code: ".toList ++ (decStr code.toNat ++ (", state: ".toList ++
            (debugStr special st ++ (", message: ".toList ++ (debugStr special msg ++ " }))".toList))))) := by
      rw [e1, e2, e3, e4]
      simp only [Error.debug, ErrPacket.debug, hs, debugTuple, debugStruct, commaSep, List.map_cons,
        List.map_nil, List.cons_append, List.nil_append, List.append_assoc]
    rw [t, expect_self]
    dsimp only [Option.bind_eq_bind, Option.bind_some]
    rw [number_decStr _ _ (hd' _)]
    dsimp only [Option.bind_eq_bind, Option.bind_some]
    rw [expect_self]
    dsimp only
    rw [C82_literal]
    dsimp only [Option.bind_eq_bind, Option.bind_some, Option.map_some]
    rw [expect_self]
    dsimp only [Option.bind_eq_bind, Option.bind_some]
    rw [C82_literal]
    dsimp only [Option.bind_eq_bind, Option.bind_some]
    rw [if_pos rfl]

/-- Two different errors of the server never have the same text. -/
theorem C82_distinct (special : Char → Bool) (protocol : ProtocolError → Str) (code code' : UInt16)
    (state state' : Str) (msg msg' : Str)
    (h : (Error.server (.error code (some (utf8 state)) msg)).debug special protocol
      = (Error.server (.error code' (some (utf8 state')) msg')).debug special protocol) :
    code = code' ∧ state = state' ∧ msg = msg' := by
  have h1 := C82_error special protocol code (some (utf8 state)) msg
  rw [h, C82_error] at h1
  simp only [stateStr, Option.map_some, fromUtf8_utf8, Option.getD_some, Option.some.injEq,
    Prod.mk.injEq] at h1
  exact ⟨UInt16.toNat_inj.1 h1.1.symm, h1.2.1.symm, h1.2.2.symm⟩

theorem expect_none (a b : Char) (p s : Str) (h : a ≠ b) : Spec.expect (a :: p) (b :: s) = none := by
  unfold Spec.expect
  rw [if_neg]
  simp [List.isPrefixOf, h]

theorem numbersN_commaSep (l : List Nat) (h : l ≠ []) (r : Str) (n : Nat) (hn : (commaSep (l.map decStr)).length < n) :
    Spec.numbersN n (commaSep (l.map decStr) ++ ']' :: r) = some (l, r) := by
  induction l generalizing n with
  | nil => exact absurd rfl h
  | cons k l ih =>
    cases n with
    | zero => simp at hn
    | succ n =>
      cases l with
      | nil =>
        rw [Spec.numbersN]
        show (do let (k, s) ← Spec.number (decStr k ++ ']' :: r); _) = _
        rw [number_decStr _ _ (by intro d hd; cases hd; decide)]
        dsimp only [Option.bind_eq_bind, Option.bind_some]
        rw [show Spec.expect ", ".toList (']' :: r) = none from expect_none _ _ _ _ (by decide)]
        dsimp only
        rw [show ']' :: r = "]".toList ++ r from rfl, expect_self]
        rfl
      | cons j l =>
        have e : commaSep ((k :: j :: l).map decStr) ++ ']' :: r
            = decStr k ++ (", ".toList ++ (commaSep ((j :: l).map decStr) ++ ']' :: r)) := by
          simp only [List.map_cons, commaSep, List.append_assoc]
        rw [e, Spec.numbersN, number_decStr _ _ (by intro d hd; cases hd; decide)]
        dsimp only [Option.bind_eq_bind, Option.bind_some]
        rw [expect_self]
        dsimp only
        rw [ih (by simp) n (by
          have : (commaSep ((k :: j :: l).map decStr)).length
            = (decStr k).length + (2 + (commaSep ((j :: l).map decStr)).length) := by
            simp only [List.map_cons, commaSep, List.length_append, List.append_assoc]; rfl
          omega)]
        rfl

theorem numberList_debugBytes (b : Bytes) (r : Str) :
    Spec.numberList (debugBytes b ++ r) = some (b.map UInt8.toNat, r) := by
  unfold Spec.numberList debugBytes
  by_cases h : b = []
  · subst h
    have e : ['['] ++ commaSep (([] : Bytes).map fun x => decStr x.toNat) ++ [']'] ++ r = "[]".toList ++ r := rfl
    rw [e, expect_self]
    rfl
  · have e : ['['] ++ commaSep (b.map fun x => decStr x.toNat) ++ [']'] ++ r
        = "[".toList ++ (commaSep ((b.map UInt8.toNat).map decStr) ++ ']' :: r) := by
      simp [List.map_map, Function.comp_def]
    rw [e]
    have h0 : Spec.expect "[]".toList ("[".toList ++ (commaSep ((b.map UInt8.toNat).map decStr) ++ ']' :: r)) = none := by
      unfold Spec.expect
      rw [if_neg]
      intro hp
      cases b with
      | nil => exact h rfl
      | cons x xs =>
        obtain ⟨_, h2, h3⟩ := numVal_decStr x.toNat
        have hh : ∃ d t u, decStr x.toNat = d :: t ∧
            commaSep (((x :: xs).map UInt8.toNat).map decStr) = d :: u := by
          match hd : decStr x.toNat with
          | [] => exact absurd hd h2
          | d :: t =>
            cases xs with
            | nil => exact ⟨d, t, t, rfl, by simp [commaSep, hd]⟩
            | cons y ys => exact ⟨d, t, _, rfl, by simp only [List.map_cons, commaSep, hd]; rfl⟩
        obtain ⟨d, t, u, h4, h5⟩ := hh
        rw [h5] at hp
        have h6 : d = ']' := by
          have := hp
          simp [List.isPrefixOf] at this
          exact this.symm
        have h7 := h3 d (by rw [h4]; simp)
        rw [h6] at h7
        exact absurd h7 (by decide)
    rw [h0]
    dsimp only
    rw [expect_self]
    dsimp only [Option.bind_some]
    exact numbersN_commaSep _ (by simpa using h) r _ (by simp)

/-- **C82** (progress reports): their text has exactly one reading as well. -/
theorem C82_progress (special : Char → Bool) (protocol : ProtocolError → Str) (stage last : UInt8) (now : UInt32)
    (info : Bytes) :
    Spec.readProgress ((Error.server (.progress stage last now info)).debug special protocol)
      = some (stage.toNat, last.toNat, now.toNat, info.map UInt8.toNat) := by
  have t : (Error.server (.progress stage last now info)).debug special protocol
      = "Server(Progress(ProgressPacket { stage: ".toList ++ (decStr stage.toNat ++ (", max_stage: ".toList ++
          (decStr last.toNat ++ (", progress: ".toList ++ (decStr now.toNat ++ (", stage_info: ".toList ++
            (debugBytes info ++ " }))".toList))))))) := by
    have e1 : "Server(Progress(ProgressPacket { stage: ".toList = "Server".toList ++ ['('] ++ ("Progress".toList ++
      ['('] ++ ("ProgressPacket".toList ++ " { ".toList ++ ("stage".toList ++ ": ".toList))) := by decide
    have e2 : ", max_stage: ".toList = ", ".toList ++ ("max_stage".toList ++ ": ".toList) := by decide
    have e3 : ", progress: ".toList = ", ".toList ++ ("progress".toList ++ ": ".toList) := by decide
    have e4 : ", stage_info: ".toList = ", ".toList ++ ("stage_info".toList ++ ": ".toList) := by decide
    have e5 : " }))".toList = " }".toList ++ ([')'] ++ [')']) := by decide
    rw [e1, e2, e3, e4, e5]
    simp only [Error.debug, ErrPacket.debug, debugTuple, debugStruct, commaSep, List.map_cons, List.map_nil,
      List.append_assoc]
  unfold Spec.readProgress
  rw [t, expect_self]
  dsimp only [Option.bind_eq_bind, Option.bind_some]
  rw [number_decStr _ _ (by intro d hd; cases hd; decide)]
  dsimp only [Option.bind_eq_bind, Option.bind_some]
  rw [expect_self]
  dsimp only [Option.bind_eq_bind, Option.bind_some]
  rw [number_decStr _ _ (by intro d hd; cases hd; decide)]
  dsimp only [Option.bind_eq_bind, Option.bind_some]
  rw [expect_self]
  dsimp only [Option.bind_eq_bind, Option.bind_some]
  rw [number_decStr _ _ (by intro d hd; cases hd; decide)]
  dsimp only [Option.bind_eq_bind, Option.bind_some]
  rw [expect_self]
  dsimp only [Option.bind_eq_bind, Option.bind_some]
  rw [numberList_debugBytes]
  dsimp only [Option.bind_eq_bind, Option.bind_some]
  rw [if_pos rfl]

/-- **C82** (runtime errors): no two of them have the same text; a refused authentication method is named together with
the one that was set. -/
theorem C82_runtime (special : Char → Bool) (protocol : ProtocolError → Str) (a b : RuntimeError) (p q : AuthPlugin) :
    ((Error.runtime a).debug special protocol = (Error.runtime b).debug special protocol ↔ a = b) ∧
    Spec.readMismatch ((Error.runtime (.authPluginMismatch p q)).debug special protocol)
      = some (p.debug, q.debug) := by
  constructor
  · refine ⟨fun h => ?_, fun h => by rw [h]⟩
    have h' : a.debug = b.debug := by
      simpa [Error.debug, debugTuple, commaSep] using h
    revert h'
    match a, b with
    | .authPluginMismatch x y, .authPluginMismatch z w =>
      cases x <;> cases y <;> cases z <;> cases w <;> decide
    | .authPluginMismatch x y, .parameterCountMismatch => cases x <;> cases y <;> decide
    | .authPluginMismatch x y, .insecureAuth => cases x <;> cases y <;> decide
    | .parameterCountMismatch, .authPluginMismatch x y => cases x <;> cases y <;> decide
    | .insecureAuth, .authPluginMismatch x y => cases x <;> cases y <;> decide
    | .parameterCountMismatch, .parameterCountMismatch => decide
    | .parameterCountMismatch, .insecureAuth => decide
    | .insecureAuth, .parameterCountMismatch => decide
    | .insecureAuth, .insecureAuth => decide
  · show Spec.readMismatch (debugTuple "Runtime".toList [(RuntimeError.authPluginMismatch p q).debug]) = _
    cases p <;> cases q <;> decide +kernel

/-! ### no surprises on a terminal or in a log file -/

theorem debugChar_plain (special : Char → Bool)
    (ha : ∀ c : Char, 32 ≤ c.toNat → c.toNat < 127 → special c = false) (c : Char) :
    ∀ d ∈ debugChar special c, special d = false ∧ d ≠ '\n' ∧ d ≠ '\r' := by
  have fix : ∀ d : Char, 32 ≤ d.toNat → d.toNat < 127 → special d = false ∧ d ≠ '\n' ∧ d ≠ '\r' := by
    intro d h1 h2
    refine ⟨ha d h1 h2, ?_, ?_⟩ <;> rintro rfl <;> revert h1 <;> decide
  have two : ∀ a : Char, 32 ≤ a.toNat → a.toNat < 127 → ∀ d ∈ ['\\', a],
      special d = false ∧ d ≠ '\n' ∧ d ≠ '\r' := by
    intro a h1 h2 d hd
    rcases List.mem_cons.1 hd with rfl | hd
    · exact fix _ (by decide) (by decide)
    · rw [List.mem_singleton.1 hd]
      exact fix _ h1 h2
  have hex : ∀ n, ∀ d ∈ hexStr n, special d = false ∧ d ≠ '\n' ∧ d ≠ '\r' := by
    intro n
    have dig : ∀ k < 16, 32 ≤ (hexDigit k).toNat ∧ (hexDigit k).toNat < 127 := by decide
    induction n using Nat.strongRecOn with
    | _ n ih =>
      rw [hexStr]
      split
      · rename_i h
        intro d hd
        rw [List.mem_singleton.1 hd]
        exact fix _ (dig n h).1 (dig n h).2
      · intro d hd
        rcases List.mem_append.1 hd with hd | hd
        · exact ih (n / 16) (by omega) d hd
        · rw [List.mem_singleton.1 hd]
          have := dig (n % 16) (by omega)
          exact fix _ this.1 this.2
  unfold debugChar
  by_cases h1 : c = '\x00'
  · rw [if_pos h1]; exact two _ (by decide) (by decide)
  rw [if_neg h1]
  by_cases h2 : c = '\t'
  · rw [if_pos h2]; exact two _ (by decide) (by decide)
  rw [if_neg h2]
  by_cases h3 : c = '\r'
  · rw [if_pos h3]; exact two _ (by decide) (by decide)
  rw [if_neg h3]
  by_cases h4 : c = '\n'
  · rw [if_pos h4]; exact two _ (by decide) (by decide)
  rw [if_neg h4]
  by_cases h5 : c = '\\'
  · rw [if_pos h5]; exact two _ (by decide) (by decide)
  rw [if_neg h5]
  by_cases h6 : c = '"'
  · rw [if_pos h6]; exact two _ (by decide) (by decide)
  rw [if_neg h6]
  split
  · intro d hd
    rcases List.mem_append.1 hd with hd | hd
    · rcases List.mem_append.1 hd with hd | hd
      · rcases List.mem_cons.1 hd with rfl | hd
        · exact fix _ (by decide) (by decide)
        · rcases List.mem_cons.1 hd with rfl | hd
          · exact fix _ (by decide) (by decide)
          · rw [List.mem_singleton.1 hd]; exact fix _ (by decide) (by decide)
      · exact hex _ d hd
    · rw [List.mem_singleton.1 hd]; exact fix _ (by decide) (by decide)
  · rename_i h7
    intro d hd
    rw [List.mem_singleton.1 hd]
    exact ⟨by simpa using h7, h4, h3⟩

/-- **C82** (strings): the text of a string consists of printable characters only, and is one line. -/
theorem C82_printable (special : Char → Bool)
    (ha : ∀ c : Char, 32 ≤ c.toNat → c.toNat < 127 → special c = false) (s : Str) :
    ∀ d ∈ debugStr special s, special d = false ∧ d ≠ '\n' ∧ d ≠ '\r' := by
  have q : special '"' = false ∧ '"' ≠ '\n' ∧ '"' ≠ '\r' :=
    ⟨ha _ (by decide) (by decide), by decide, by decide⟩
  intro d hd
  unfold debugStr at hd
  rcases List.mem_cons.1 hd with rfl | hd
  · exact q
  · rcases List.mem_append.1 hd with hd | hd
    · obtain ⟨c, _, hd⟩ := List.mem_flatMap.1 hd
      exact debugChar_plain special ha c d hd
    · rw [List.mem_singleton.1 hd]; exact q

/-! ### from the server to the text -/

/-- **C82**: if the server answers a statement with an error, in any state of the connection, the text
of the error returned has exactly one reading: the code, the state and the message in the packet. -/
theorem C82_reported (special : Char → Bool) (protocol : ProtocolError → Str) (sql : Str) (c c0 c1 c' : Conn)
    (p : Bytes) (code : UInt16) (state : Str) (msg : Str) (hi : Spec.Idle c c0)
    (hw : Spec.Wrote c0 (0x03 :: utf8 sql) c1) (ht : Spec.Took c1 [p] c')
    (hp : Spec.ErrForm c.data.capabilities p code (some (utf8 state)) msg) :
    ∃ e, executeQuery sql c = (.err e, c') ∧
      Spec.readError (e.debug special protocol) = some (code.toNat, some state, msg) := by
  refine ⟨_, (C77_execute_error sql c c' code (some (utf8 state)) msg).2 ⟨c0, c1, p, hi, hw, ht, hp⟩, ?_⟩
  rw [C82_error]
  simp [stateStr, fromUtf8_utf8]

/-- a message that tries to look like the end of the error and another line. -/
theorem C82_example :
    let special := fun c : Char => c.toNat < 32 || c.toNat = 127
    let e : Error := .server (.error 1146 (some (utf8 "42S02".toList))
      "no table \"x\" }))\nINFO: all is well\x1b[2J".toList)
    e.debug special (fun _ => []) =
      ("Server(Error(ErrorPacket { code: 1146, state: \"42S02\", message: " ++
        "\"no table \\\"x\\\" }))\\nINFO: all is well\\u{1b}[2J\" }))").toList ∧
    Spec.readError (e.debug special fun _ => []) = some (1146, some "42S02".toList,
      "no table \"x\" }))\nINFO: all is well\x1b[2J".toList) := by
  refine ⟨?_, ?_⟩ <;> decide +kernel

end Verif
