import Verif.Model.Display
import Verif.Model.Io
import Verif.Model.Utf8

/-!
# What `{:?}` prints

`Error` has no `Display`; what a user sees of it is its `Debug` text.  The builders of the standard
library (`debug_struct`, `debug_tuple`, derived implementations, strings) are mirrored for `{:?}`; the
indented form `{:#?}` is in `Model/DebugTree`.  Which characters the standard library regards as not printable is a
parameter.
-/

namespace Verif

/-- hexadecimal digits without leading zeros. -/
def hexStr (n : Nat) : Str :=
  if n < 16 then [hexDigit n] else hexStr (n / 16) ++ [hexDigit (n % 16)]

/-- standard library, `char::escape_debug_ext` as used for strings: `special` holds for the characters
that are not printable or extend a grapheme. -/
def debugChar (special : Char → Bool) (c : Char) : Str :=
  if c = '\x00' then ['\\', '0'] else if c = '\t' then ['\\', 't'] else if c = '\r' then ['\\', 'r']
  else if c = '\n' then ['\\', 'n'] else if c = '\\' then ['\\', '\\'] else if c = '"' then ['\\', '"']
  else if special c then ['\\', 'u', '{'] ++ hexStr c.toNat ++ ['}'] else [c]

/-- `Debug` of `str` and `String`. -/
def debugStr (special : Char → Bool) (s : Str) : Str := '"' :: (s.flatMap (debugChar special) ++ ['"'])

def commaSep : List Str → Str
  | [] => []
  | [x] => x
  | x :: y :: r => x ++ ", ".toList ++ commaSep (y :: r)

/-- `debug_struct`, with at least one field. -/
def debugStruct (name : Str) (fields : List (Str × Str)) : Str :=
  name ++ " { ".toList ++ commaSep (fields.map fun f => f.1 ++ ": ".toList ++ f.2) ++ " }".toList

/-- `debug_tuple`, with at least one field. -/
def debugTuple (name : Str) (args : List Str) : Str := name ++ ['('] ++ commaSep args ++ [')']

/-- `Debug` of `Option`. -/
def debugOpt : Option Str → Str
  | none => "None".toList
  | some s => debugTuple "Some".toList [s]

/-- `Debug` of `Vec<u8>`. -/
def debugBytes (b : Bytes) : Str := ['['] ++ commaSep (b.map fun x => decStr x.toNat) ++ [']']

def debugBool (b : Bool) : Str := if b then "true".toList else "false".toList

/-- packets/err.rs 54-59 `state_str`: the state has been found to be UTF-8 while parsing. -/
def stateStr (state : Option Bytes) : Option Str := state.map fun b => (fromUtf8 b).getD []

/-- packets/err.rs 10-14, 66-76, 108-114. -/
def ErrPacket.debug (special : Char → Bool) : ErrPacket → Str
  | .error code state message =>
    debugTuple "Error".toList [debugStruct "ErrorPacket".toList
      ([("code".toList, decStr code.toNat)] ++
       (match stateStr state with
        | some s => [("state".toList, debugStr special s)]
        | none => []) ++
       [("message".toList, debugStr special message)])]
  | .progress stage maxStage now info =>
    debugTuple "Progress".toList [debugStruct "ProgressPacket".toList
      [("stage".toList, decStr stage.toNat), ("max_stage".toList, decStr maxStage.toNat),
       ("progress".toList, decStr now.toNat), ("stage_info".toList, debugBytes info)]]

/-- types/auth_plugin.rs 15-27. -/
def AuthPlugin.debug : AuthPlugin → Str
  | .clear => "Clear".toList
  | .native => "Native".toList
  | .sha2 => "Sha2".toList

/-- error/mod.rs 14-25. -/
def RuntimeError.debug : RuntimeError → Str
  | .parameterCountMismatch => "ParameterCountMismatch".toList
  | .insecureAuth => "InsecureAuth".toList
  | .authPluginMismatch current requested =>
    debugTuple "AuthPluginMismatch".toList [debugStruct "AuthPluginMismatch".toList
      [("current".toList, current.debug), ("requested".toList, requested.debug)]]

/-- error/mod.rs 33-38; the texts of protocol errors, which contain errors of the standard library, are
a parameter. -/
def Error.debug (special : Char → Bool) (protocol : ProtocolError → Str) : Error → Str
  | .server p => debugTuple "Server".toList [p.debug special]
  | .protocol e => debugTuple "Protocol".toList [protocol e]
  | .runtime e => debugTuple "Runtime".toList [e.debug]

/-- utils/crypt.rs 118-122. -/
def PublicKey.debug (k : PublicKey) : Str :=
  debugStruct "PublicKey".toList
    [("modulus".toList, decStr k.modulus), ("exponent".toList, decStr k.exponent)]

/-- connection/options.rs 119-135; `stream` and `timeout` are the texts of the stream's options and of
the duration. -/
def Options.debug (special : Char → Bool) (stream timeout : Str) (o : Options) : Str :=
  debugStruct "ConnectionOptions".toList
    [("user".toList, debugStr special o.user),
     ("password".toList, debugStr special o.password),
     ("db_name".toList, debugOpt (o.dbName.map (debugStr special))),
     ("connection".toList, stream),
     ("max_allowed_packet".toList, debugOpt (o.maxAllowedPacket.map decStr)),
     ("timeout".toList, timeout),
     ("allow_cleartext_password".toList, debugBool o.allowCleartext),
     ("auth_plugin".toList, debugOpt (o.authPlugin.map AuthPlugin.debug)),
     ("server_key".toList, debugOpt (o.serverKey.map PublicKey.debug))]

/-- connection/data.rs 48-66; `caps` is the text of the capability flags. -/
def ConnData.debug (caps : UInt32 → Str) (d : ConnData) : Str :=
  debugStruct "ConnectionData".toList
    [("id".toList, decStr d.id.toNat),
     ("is_mariadb".toList, debugBool d.isMariadb),
     ("version".toList, debugTuple [] [decStr d.version.1.toNat, decStr d.version.2.1.toNat,
        decStr d.version.2.2.toNat]),
     ("capabilities".toList, caps d.capabilities),
     ("nonce".toList, debugBytes d.nonce),
     ("server_key".toList, debugOpt (d.serverKey.map PublicKey.debug)),
     ("auth_plugin".toList, d.authPlugin.debug),
     ("auth_switched".toList, debugBool d.authSwitched),
     ("max_allowed_packet".toList, decStr d.maxAllowedPacket)]

/-- connection/mod.rs 68-76. -/
def Conn.debug (special : Char → Bool) (caps : UInt32 → Str) (stream timeout : Str) (c : Conn) : Str :=
  debugStruct "Connection".toList
    [("seq_id".toList, decStr c.seqId.toNat),
     ("data".toList, c.data.debug caps),
     ("options".toList, c.options.debug special stream timeout)]

end Verif
