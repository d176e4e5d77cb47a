import Verif.Spec.Handshake
import Verif.Spec.Packet
import Verif.Spec.Response
import Verif.Spec.Rsa
import Verif.Spec.Scramble

/-!
# Spec: a server that authenticates a client

After "Connection Phase" of the MySQL documentation and `sql_authentication.cc`,
`sha2_password.cc`: the client answers the greeting with a login request; if it used another plugin
than the account's, the server asks it to switch; the server then checks the response.  For
`caching_sha2_password` the response is checked against a cache; if that fails, the server asks for
the password itself, which the client sends as it is on a secure transport and otherwise encrypted
with the server's public key, after asking for the key if it does not know it.
-/

namespace Verif.Spec

/-- a server and the one account somebody tries to log in to. -/
structure LoginServer where
  greeting : Greeting
  user : Bytes
  plugin : AuthPlugin
  password : Bytes
  /-- the challenge sent with a switch request -/
  challenge2 : Bytes
  /-- whether the double hash of the password is in the cache of `caching_sha2_password` -/
  cached : Bool
  /-- whether the transport is secure -/
  secure : Bool
  sha1 : Bytes → Bytes
  sha256 : Bytes → Bytes
  /-- RSA key: modulus, private exponent and the text of the public key -/
  modulus : Nat
  private_ : Nat
  keyText : Bytes
  /-- the OK and ERR packets it sends -/
  accept : Bytes
  refuse : Bytes

/-- what the server waits for; the challenge is the one last sent. -/
inductive LoginPhase where
  | login
  | response
  | password (challenge : Bytes)
  | encrypted (challenge : Bytes)
  | over (accepted : Bool)
  deriving DecidableEq

/-- exclusive or with a repeated string. -/
def xorRepeated (x nonce : Bytes) : Bytes :=
  xor x ((List.range x.length).map fun i => nonce.getD (i % nonce.length) 0)

namespace LoginServer

def verdict (S : LoginServer) (accepted : Bool) : List Bytes × LoginPhase :=
  ([if accepted then S.accept else S.refuse], .over accepted)

/-- the switch request. -/
def switchRequest (S : LoginServer) : Bytes :=
  [0xFE] ++ pluginName S.plugin ++ [0] ++ S.challenge2 ++ [0]

/-- the check of a response of the account's plugin. -/
def check (S : LoginServer) (challenge response : Bytes) : List Bytes × LoginPhase :=
  match S.plugin with
  | .clear => S.verdict (decide (response = S.password ∨ response = S.password ++ [0]))
  | .native =>
    if S.password = [] ∨ response = [] then
      S.verdict (decide (S.password = [] ∧ response = []))
    else S.verdict (decide (nativeAccepts S.sha1 challenge (stored S.sha1 S.password) response))
  | .sha2 =>
    if S.password = [] ∨ response = [] then
      S.verdict (decide (S.password = [] ∧ response = []))
    else if S.cached ∧ sha2Accepts S.sha256 challenge (stored S.sha256 S.password) response then
      ([[1, 3], S.accept], .over true)
    else ([[1, 4]], .password challenge)

/-- the password, terminated by a zero byte, masked and encrypted. -/
def decrypts (S : LoginServer) (challenge message : Bytes) : Bool :=
  match rsaDecrypt S.sha1 S.modulus S.private_ message with
  | some x => decide (xorRepeated x challenge = S.password ++ [0])
  | none => false

/-- the reaction to a message of the client: the packets sent and what is expected next. -/
def react (S : LoginServer) (phase : LoginPhase) (message : Bytes) : List Bytes × LoginPhase :=
  match phase with
  | .login =>
    match readLogin message with
    | none => S.verdict false
    | some l =>
      if l.user ≠ S.user then S.verdict false
      else if l.plugin = some (pluginName S.plugin) then S.check S.greeting.challenge l.auth
      else ([S.switchRequest], .response)
  | .response => S.check S.challenge2 message
  | .password challenge =>
    if S.secure then S.verdict (decide (message = S.password ++ [0]))
    else if message = [2] then ([0x01 :: S.keyText], .encrypted challenge)
    else S.verdict (S.decrypts challenge message)
  | .encrypted challenge => S.verdict (S.decrypts challenge message)
  | .over b => ([], .over b)

/-- A complete conversation in which the client sends these messages, beginning with the sequence
number `seq`: the bytes of the server, the bytes of the client and the verdict.  `none` if the client
sends too few or too many messages. -/
def talk (S : LoginServer) : LoginPhase → UInt8 → List Bytes → Option (Bytes × Bytes × Bool)
  | .over b, _, [] => some ([], [], b)
  | .over _, _, _ :: _ => none
  | _, _, [] => none
  | phase, seq, m :: ms =>
    let q := seq + UInt8.ofNat (frameCount m)
    let (replies, next) := S.react phase m
    (S.talk next (seqAfter q replies) ms).map fun t =>
      (framesAll q replies ++ t.1, frames seq m ++ t.2.1, t.2.2)

end LoginServer

end Verif.Spec
