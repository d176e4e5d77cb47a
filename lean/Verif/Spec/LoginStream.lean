import Verif.Spec.Sending
import Verif.Spec.Login
import Verif.Spec.Accepted

/-!
# Spec: the conversations of a login

What goes over the stream while a client logs in, as a list of packets received and sent; for each conversation how it
ends. The server is arbitrary. The responses to challenges and the encryption are those of the client (C31, C33, C34 say
what a server makes of them), the text of a key is read as C35 says, the bytes of the login request are read by a server
as C37 says.
-/

namespace Verif.Spec

/-- a packet received or sent. -/
inductive Turn where
  | got (p : Bytes)
  | put (m : Bytes)
  deriving DecidableEq, Repr

/-- the packet `m`, numbered from the number expected, gets through; `c'` is `c` after that. -/
def Put (c : Conn) (m : Bytes) (c' : Conn) : Prop :=
  Clear (writesOf m) c ∧ c' = { c with
    tx := c.tx ++ frames c.seqId m
    wfaults := c.wfaults.drop (writesOf m)
    seqId := c.seqId + UInt8.ofNat (frameCount m) }

/-- this is what goes over the stream from `c` on; `c'` is `c` after that. -/
def Talk : Conn → List Turn → Conn → Prop
  | c, [], c' => c' = c
  | c, .got p :: es, c' => ∃ c1, Took c [p] c1 ∧ Talk c1 es c'
  | c, .put m :: es, c' => ∃ c1, Put c m c1 ∧ Talk c1 es c'

/-- the plugin that goes on: the one the user wants, otherwise the one named last by the server. -/
def going (o : Options) (d : ConnData) : AuthPlugin := o.authPlugin.getD d.authPlugin

/-- the plugin may be used: the user wants no other one, and the password in clear only with permission. -/
def Usable (o : Options) (p : AuthPlugin) : Prop :=
  (∀ f, o.authPlugin = some f → f = p) ∧ (p = .clear → o.allowCleartext = true)

/-- the response to a challenge; the password in clear is ended by a zero byte in a packet of its own. -/
def response (h : Hashes) (o : Options) (p : AuthPlugin) (nonce : Bytes) (own : Bool) : Bytes :=
  match p with
  | .clear => utf8 o.password ++ (if own then [0] else [])
  | .native => (scrambleNative h nonce (utf8 o.password)).getD []
  | .sha2 => (scrambleSha256 h nonce (utf8 o.password)).getD []

/-- the login request. -/
def request (h : Hashes) (o : Options) (d : ConnData) : Bytes :=
  handshakeResponse (response h o (going o d) d.nonce false) d.version (utf8 o.user) (o.dbName.map utf8)
    (some (going o d)) d.capabilities (UInt32.ofNat d.maxAllowedPacket)

/-- a request to switch. -/
def SwitchForm (q : Bytes) (p : AuthPlugin) (nonce : Bytes) : Prop :=
  (q = 0xFE :: pluginName p ∧ nonce = []) ∨ ∃ t, q = 0xFE :: pluginName p ++ 0 :: t ∧ Stripped t nonce

/-- what is known after a request to switch. -/
def switched (d : ConnData) (p : AuthPlugin) (nonce : Bytes) : ConnData :=
  { d with authSwitched := true, authPlugin := p, nonce := nonce }

/-- before the server decides: nothing, or one request to switch and the response to it. -/
def Waits (h : Hashes) (o : Options) (d : ConnData) (es : List Turn) (d' : ConnData) : Prop :=
  (es = [] ∧ d' = d) ∨
  (d.authSwitched = false ∧ ∃ q p nonce, SwitchForm q p nonce ∧ Usable o p ∧
    es = [.got q, .put (response h o p nonce true)] ∧ d' = switched d p nonce)

/-- the password, ended by a zero byte. -/
def secret (o : Options) : Bytes := utf8 o.password ++ [0]

/-- the password under way: as it is on a secure stream, otherwise encrypted, the key being asked for if it is not
known. -/
inductive Hands (cr : Crypto) (o : Options) (d : ConnData) : List Turn → ConnData → Prop
  | secure : o.secure = true → Hands cr o d [.put (secret o)] d
  | known {k enc} : o.secure = false → d.serverKey = some k → d.nonce ≠ [] →
      cr.rsa k (xorRepeated (secret o) d.nonce) = .ok enc → Hands cr o d [.put enc] d
  | asked {pem k enc} : o.secure = false → d.serverKey = none → tryFromPem pem = .ok k → d.nonce ≠ [] →
      cr.rsa k (xorRepeated (secret o) d.nonce) = .ok enc →
      Hands cr o d [.put [2], .got (1 :: pem), .put enc] { d with serverKey := some k }

/-- the server is content. -/
inductive Accepts (cr : Crypto) (o : Options) (d : ConnData) : List Turn → ConnData → Prop
  | ok {t} : Accepts cr o d [.got (0 :: t)] d
  /-- the packet after "fast authentication succeeded" is not looked at -/
  | fast {t p} : going o d = .sha2 → Accepts cr o d [.got (1 :: 3 :: t), .got p] d
  | full {t es u d'} : going o d = .sha2 → Hands cr o d es d' →
      Accepts cr o d (.got (1 :: 4 :: t) :: es ++ [.got (0 :: u)]) d'

/-- the server refuses with the packet `p`. -/
inductive Refuses (cr : Crypto) (o : Options) (d : ConnData) (p : Bytes) : List Turn → ConnData → Prop
  | at_once : Refuses cr o d p [.got p] d
  | key {t} : going o d = .sha2 → o.secure = false → d.serverKey = none →
      Refuses cr o d p [.got (1 :: 4 :: t), .put [2], .got p] d
  | full {t es d'} : going o d = .sha2 → Hands cr o d es d' →
      Refuses cr o d p (.got (1 :: 4 :: t) :: es ++ [.got p]) d'

/-- the client panics while the password is under way: the key cannot be used with the challenge, or its text breaks the
decoder. -/
inductive Breaks (cr : Crypto) (o : Options) (d : ConnData) : List Turn → ConnData → Prop
  | known {k} : o.secure = false → d.serverKey = some k →
      (d.nonce = [] ∨ cr.rsa k (xorRepeated (secret o) d.nonce) = .panic) → Breaks cr o d [] d
  | text {pem} : o.secure = false → d.serverKey = none → tryFromPem pem = .panic →
      Breaks cr o d [.put [2], .got (1 :: pem)] d
  | asked {pem k} : o.secure = false → d.serverKey = none → tryFromPem pem = .ok k →
      (d.nonce = [] ∨ cr.rsa k (xorRepeated (secret o) d.nonce) = .panic) →
      Breaks cr o d [.put [2], .got (1 :: pem)] { d with serverKey := some k }

/-- the greeting `g` leaves this known to the client. -/
def Greets (alnum : Char → Bool) (o : Options) (g : Bytes) (d : ConnData) : Prop :=
  ∃ hs v, (∃ p1 p2 rest, GreetingForm hs g p1 p2 rest) ∧ parseServerVersion alnum hs.serverVersion = .ok v ∧
    d = connDataOf o hs v

end Verif.Spec
