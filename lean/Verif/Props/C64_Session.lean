import Verif.Props.C56_Dialog
import Verif.Props.C57_Settings
import Verif.Props.C63_LoginServer

/-!
# C64 A whole session: connecting and then any history of commands
-/

namespace Verif

/-- the answer to the question for the packet limit, as C57 assumes it: a result set with at least one
row, whose first row has the number `n` in the first column of that name. -/
structure LimitAnswer (fp : FloatParse) (n : Nat) (packets : List Bytes) : Prop where
  shape : ∃ (pre post : List Spec.ColDesc) (d : Spec.ColDesc) (cols : List Column)
      (dpre dpost : List Spec.Datum) (p : Bytes) (ps : List Bytes) (status warnings : Nat),
    packets = Spec.resultSet (pre ++ d :: post) (p :: ps) status warnings ∧
    DescsAs (pre ++ d :: post) cols ∧ (pre ++ d :: post).length < 2 ^ 56 ∧
    (∀ x ∈ pre, x.name ≠ C57.name) ∧ d.name = C57.name ∧ dpre.length = pre.length ∧
    Spec.TextRow fp (cols.map Column.wireType) (dpre ++ .int 8 true n :: dpost) p ∧
    ∀ q ∈ ps, Spec.IsRow q
  bound : n < 2 ^ 64

/-- **C64**: against a server that authenticates as in C63, answers the question for its packet limit
(if none is configured) and then every command: `connect` fails with the server's error if it refuses
the login; otherwise it succeeds, reports the configured limit or else the server's, and in every
history of commands and uses of their results each step shows exactly what it shows on a connection
that receives nothing but the answer to its own command. -/
theorem C64_session {R : Type} (S : Spec.LoginServer) (o : Options) (h : Hashes) (code : UInt16)
    (state msg : Str) (e : Nat) (seed : Bytes) (alnum : Char → Bool) (fp : FloatParse)
    (hseed : seed.length = 20)
    (hc : Compatible S o h code state msg e) (hg : S.greeting.Usual alnum)
    (hd : ∀ c, 48 ≤ c.toNat → c.toNat ≤ 57 → alnum c = true) (hdot : alnum '.' = false)
    (hu : ∀ b ∈ utf8 o.user, b ≠ 0) (hdb : ∀ d, o.dbName = some d → ∀ b ∈ utf8 d, b ≠ 0)
    (hclear : S.greeting.plugin = .clear → o.allowCleartext = true)
    (limit : Nat) (answer : List Bytes) (hlimit : LimitAnswer fp limit answer)
    (hist : List (Step R × List Bytes)) (hh : ∀ x ∈ hist, x.1.Answered x.2) :
    ∃ messages sent received accepted,
      S.talk .login (UInt8.ofNat (Spec.frameCount S.greeting.encode)) messages =
        some (sent, received, accepted) ∧
      (utf8 o.user = S.user ∧ utf8 o.password = S.password → accepted = true) ∧
      ∀ rest,
        let stream := rxOf (Spec.frames 0 S.greeting.encode ++ sent) ++
          ((if o.maxAllowedPacket = none then
              rxOf (Spec.framesAll (UInt8.ofNat (Spec.frameCount (0x03 :: utf8 C57.sql))) answer)
            else []) ++ ((hist.map fun x => x.1.wire x.2).flatten ++ rest))
        let start := Conn.initial o stream []
        (accepted = false → (connect (Crypto.real h seed) alnum fp start).1 =
          .err (.server (.error code (some (utf8 state)) msg))) ∧
        (accepted = true → ∃ c, connect (Crypto.real h seed) alnum fp start = (.ok (), c) ∧
          c.data.maxAllowedPacket = o.maxAllowedPacket.getD limit ∧
          c.tx = received ++ (if o.maxAllowedPacket = none then
            Spec.frames 0 (0x03 :: utf8 C57.sql) else []) ∧
          (runSteps (hist.map Prod.fst) c).1 = hist.map fun x =>
            (x.1.run { c with rx := x.1.wire x.2, pendingResult := false }).1) := by
  obtain ⟨ms, sb, cb, b, h1, h2, _, h4⟩ := C63_login S o h code state msg e seed alnum hseed hc hg hd hdot
    hu hdb hclear
  refine ⟨ms, sb, cb, b, h1, h2, fun rest => ?_⟩
  intro stream start
  obtain ⟨c', k1, k2, k3, k4, k5, k6, k7, k8⟩ := h4
    ((if o.maxAllowedPacket = none then
        rxOf (Spec.framesAll (UInt8.ofNat (Spec.frameCount (0x03 :: utf8 C57.sql))) answer)
      else []) ++ ((hist.map fun x => x.1.wire x.2).flatten ++ rest))
  have k1' : login (Crypto.real h seed) alnum start = (verdictResult code state msg b, c') := k1
  constructor
  · intro hb
    unfold connect
    rw [hb] at k1'
    rw [SM.bind_of_err (show login (Crypto.real h seed) alnum start = (.err _, c') from k1')]
  · intro hb
    rw [hb] at k1'
    unfold connect
    rw [SM.bind_of_ok (show login (Crypto.real h seed) alnum start = (.ok (), c') from k1')]
    cases ho : o.maxAllowedPacket with
    | some k =>
      rw [ho] at k3 k8
      rw [C57_not_asked fp c' k (by rw [k5]; exact ho)]
      refine ⟨c', rfl, k8, by simpa using k2, ?_⟩
      have := C56_answers_partial c' k6 k4 hist hh rest (by simpa using k3)
      rw [this]
      refine List.map_congr_left fun x _ => ?_
      rw [← k6]
    | none =>
      rw [ho] at k3
      obtain ⟨pre, post, d, cols, dpre, dpost, p, ps, status, warnings, e1, e2, e3, e4, e5, e6, e7, e8⟩ :=
        hlimit.shape
      obtain ⟨c2, g1, g2, g3, g4, g5, g6, g7⟩ := C57_asked fp c' pre post d cols dpre dpost limit p ps
        status warnings ((hist.map fun x => x.1.wire x.2).flatten ++ rest) k6 k4 (by rw [k5]; exact ho) e2 e3
        e4 e5 e6 hlimit.bound e7 (by rw [k3, e1]; simp)
      refine ⟨c2, g1, by rw [g2]; rfl, by rw [g3, k2]; simp, ?_⟩
      have hl : Left (ps ++ [Spec.terminator status warnings]) true :=
        Or.inr ⟨rfl, ps, status, warnings, rfl, fun q hq => Inner.of_isRow (e8 q hq)⟩
      have := answers_left { c2 with pendingResult := false } rfl g6 hist hh rest c2.tx c2.seqId
        (ps ++ [Spec.terminator status warnings]) true hl
      rw [← this]
      congr 2
      unfold Conn.spot
      cases c2
      simp only at g4 g7
      subst g4 g7
      rfl

namespace C64

def limitColumn : Spec.ColDesc :=
  { db := [], table := [], orgTable := [], name := C57.name, orgName := [],
    charset := 63, length := 21, code := 8, flags := 160, decimals := 0 }

def options : Options := { C28.opts with secure := true, maxAllowedPacket := none }

/-- the login request: the announced limit is the default. -/
def request : Bytes :=
  handshakeResponse (firstResponse C63.hashes .sha2 (utf8 options.password)
    (C63.server .sha2 true false).greeting.challenge)
    (8, 0, 34) (utf8 options.user) none (some .sha2) (0xDFFFFFFF &&& options.capabilities)
    (UInt32.ofNat DEFAULT_MAX_ALLOWED_PACKET)

/-- the server's side of a session with an empty cache and the history of C56. -/
def stream : Bytes :=
  match (C63.server .sha2 true false).talk .login 1 [request, ascii "hunter2" ++ [0]] with
  | some (sent, _, _) => Spec.frames 0 (C63.server .sha2 true false).greeting.encode ++ sent ++
      Spec.framesAll 1 (Spec.resultSet [limitColumn] [Spec.lenencStr (Spec.dec 67108864)] 2 0)
  | none => []

end C64

example :
    let r := connect (Crypto.real C63.hashes C33.seed) C28.asciiAlnum C56.noFloats
      (Conn.initial C64.options (rxOf C64.stream ++
        ((C56.hist.map fun x => x.1.wire x.2).flatten)) [])
    r.1 = .ok () ∧ r.2.data.maxAllowedPacket = 67108864 ∧ r.2.pendingResult = true ∧
    ((runSteps (C56.hist.map Prod.fst) r.2).1.map fun x => match x with
      | .result _ gots => gots.map fun g => match g with
        | .ok (.row (some r)) => [r]
        | .ok (.rows rs) => rs
        | _ => []
      | .done (.ok ok) => [[[.ulong ok.affectedRows]]]
      | _ => [])
    = [[[[.int 7]]], [], [[[.ulong 7]]], [[[.int 7], [.int 8]], []]] := by
  decide +kernel

end Verif
