import Verif.Props.C12_Iteration
import Verif.Props.C13_Abandoned
import Verif.Props.C55_Capabilities

/-! # C57 — the server's packet limit is recorded after connecting -/

namespace Verif

theorem SM.bind_assoc {σ ε α β γ : Type} (m : SM σ ε α) (f : α → SM σ ε β) (g : β → SM σ ε γ) :
    (m >>= f) >>= g = m >>= fun a => f a >>= g := by
  funext s
  simp only [SM.bind_apply]
  match m s with
  | (.ok a, s') => rfl
  | (.err _, s') => rfl
  | (.panic, s') => rfl

/-- the question. -/
def C57.sql : Str := "select @@max_allowed_packet".toList

/-- the name of the answer's column. -/
def C57.name : Str := "@@max_allowed_packet".toList

theorem meaning_ulong {v : Value} {n : Nat} (h : Spec.meaning v = .int 8 true n) (hn : n < 2 ^ 64) :
    v = .ulong (UInt64.ofNat n) := by
  cases v <;> simp [Spec.meaning, Spec.mkTime] at h
  · rename_i x
    have : x = UInt64.ofNat n := by
      apply UInt64.toNat_inj.mp
      rw [UInt64.toNat_ofNat_of_lt' hn]; omega
    rw [this]

/-- Nothing configured: the connection asks, and whatever number `n` the server answers — in any
column layout, as long as the column carrying the name is an unsigned 64-bit column and comes first
among those of that name — is the limit the connection reports.  Nothing else changes, except that
the end of the answer is still to be read (any later command skips it, see C13). -/
theorem C57_asked (fp : FloatParse) (c : Conn) (pre post : List Spec.ColDesc) (d : Spec.ColDesc)
    (cols : List Column) (dpre dpost : List Spec.Datum) (n : Nat) (p : Bytes) (ps : List Bytes)
    (status warnings : Nat) (r : List Rx)
    (hp : c.pendingResult = false) (hw : c.wfaults = []) (ho : c.options.maxAllowedPacket = none)
    (hd : DescsAs (pre ++ d :: post) cols) (hl : (pre ++ d :: post).length < 2 ^ 56)
    (hpre : ∀ x ∈ pre, x.name ≠ C57.name) (hname : d.name = C57.name)
    (hlen : dpre.length = pre.length) (hn : n < 2 ^ 64)
    (hrow : Spec.TextRow fp (cols.map Column.wireType) (dpre ++ .int 8 true n :: dpost) p)
    (hrx : c.rx = rxOf (Spec.framesAll (UInt8.ofNat (Spec.frameCount (0x03 :: utf8 C57.sql)))
      (Spec.resultSet (pre ++ d :: post) (p :: ps) status warnings)) ++ r) :
    ∃ c', readSettings fp c = (.ok (), c') ∧ c'.data = { c.data with maxAllowedPacket := n } ∧
      c'.tx = c.tx ++ Spec.frames 0 (0x03 :: utf8 C57.sql) ∧ c'.pendingResult = true ∧
      c'.options = c.options ∧ c'.wfaults = [] ∧
      c'.rx = rxOf (Spec.framesAll c'.seqId (ps ++ [Spec.terminator status warnings])) ++ r := by
  have hcols : cols ≠ [] := by
    rintro rfl
    have := List.Forall₂.length_eq hd
    simp at this
  have hrows : TextRows fp cols [dpre ++ .int 8 true n :: dpost] [p] := List.Forall₂.cons hrow .nil
  obtain ⟨xs, h1, h2⟩ := rowsAs_text hrows hcols
  unfold RowsAs at h1
  cases h1 with
  | @cons _ x _ ys hx hy =>
  cases hy
  obtain ⟨g1, vs, g2, g3⟩ := hx
  simp only [List.map_cons, List.map_nil, List.cons.injEq, and_true] at h2
  -- the columns
  unfold DescsAs at hd
  have hd0 := hd
  obtain ⟨c1, c2, e1, e2, rfl⟩ : ∃ c1 c2,
      List.Forall₂ (fun d col => ∃ t, DescOk d t ∧ col = columnOf d t) pre c1 ∧
      List.Forall₂ (fun d col => ∃ t, DescOk d t ∧ col = columnOf d t) (d :: post) c2 ∧
      cols = c1 ++ c2 := by
    refine ⟨cols.take pre.length, cols.drop pre.length, ?_, ?_, (List.take_append_drop _ _).symm⟩
    · have := List.forall₂_take_append cols pre (d :: post) (hd.flip)
      exact this.flip
    · have := List.forall₂_drop_append cols pre (d :: post) (hd.flip)
      exact this.flip
  cases e2 with
  | @cons _ col _ c3 hcol e3 =>
  obtain ⟨t, _, rfl⟩ := hcol
  have hc1 : ∀ x ∈ c1, (x.name == C57.name) = false := by
    clear hd hd0 hlen hrow hrx hrows hl g2 g3 hcols
    induction e1 with
    | nil => simp
    | @cons a b as bs ha _ ih =>
      obtain ⟨t, _, rfl⟩ := ha
      intro x hx
      rcases List.mem_cons.1 hx with rfl | hx
      · simpa [columnOf] using hpre a (by simp)
      · exact ih (fun y hy => hpre y (by simp [hy])) x hx
  have hl1 : c1.length = pre.length := (List.Forall₂.length_eq e1).symm
  have hidx : (c1 ++ columnOf d t :: c3).findIdx (fun col => col.name == C57.name) = pre.length := by
    rw [List.findIdx_append, if_neg, List.findIdx_cons]
    · simp [columnOf, hname, hl1]
    · rw [List.findIdx_lt_length]
      rintro ⟨x, hx, hx2⟩
      rw [hc1 x hx] at hx2; cases hx2
  have hval : x[pre.length]? = some (.ulong (UInt64.ofNat n)) := by
    have : (x.map Spec.meaning)[pre.length]? = some (.int 8 true n) := by
      rw [h2, List.getElem?_append_right (by omega)]
      simp [hlen]
    rw [List.getElem?_map] at this
    cases hv : x[pre.length]? with
    | none => rw [hv] at this; cases this
    | some v =>
      rw [hv] at this
      injection this with this
      rw [meaning_ulong this hn]
  have hlim : limitOf (c1 ++ columnOf d t :: c3) x = .ok (some n) := by
    unfold limitOf
    change (if (c1 ++ columnOf d t :: c3).findIdx (fun col => col.name == C57.name) < _ then
      match x[(c1 ++ columnOf d t :: c3).findIdx (fun col => col.name == C57.name)]? with
      | some (.ulong n) => _
      | some v => _
      | none => _ else _) = _
    rw [hidx, if_pos (by simp [hl1]), hval]
    dsimp only
    rw [UInt64.toNat_ofNat_of_lt' hn]
  unfold readSettings
  rw [SM.get_bind_apply, ho]
  dsimp only [Option.isNone]
  rw [if_pos rfl]
  unfold askLimit
  change ∃ c', (query C57.sql >>= _) c = _ ∧ _
  have hq : query C57.sql c = (.ok { columns := c1 ++ columnOf d t :: c3, okPacket := none },
      { Conn.feed { c with tx := c.tx ++ Spec.frames 0 (0x03 :: utf8 C57.sql) }
          (Spec.seqAfter (UInt8.ofNat (Spec.frameCount (0x03 :: utf8 C57.sql)))
            (headPackets (pre ++ d :: post))) (p :: (ps ++ [Spec.terminator status warnings])) r
        with pendingResult := true }) := by
    unfold query
    rw [SM.bind_of_ok (executeCommand_clean .query (utf8 C57.sql) c hp hw)]
    have e : Command.query.toByte = 0x03 := rfl
    rw [e]
    generalize hs : UInt8.ofNat (Spec.frameCount (0x03 :: utf8 C57.sql)) = s at hrx
    have e2 : ({ c with tx := c.tx ++ Spec.frames 0 (0x03 :: utf8 C57.sql), seqId := s } : Conn)
        = Conn.feed { c with tx := c.tx ++ Spec.frames 0 (0x03 :: utf8 C57.sql) } s
            (headPackets (pre ++ d :: post) ++ (p :: (ps ++ [Spec.terminator status warnings]))) r := by
      simp only [Conn.feed, hrx, Spec.resultSet, headPackets]
      simp
    rw [e2]
    exact read_head (pre ++ d :: post) (c1 ++ columnOf d t :: c3) _ s _ r hd0 (by simp) hl
  rw [SM.bind_of_ok hq]
  have hnx := next_row (textReader fp mkPlain)
    { columns := c1 ++ columnOf d t :: c3, okPacket := none }
    { c with tx := c.tx ++ Spec.frames 0 (0x03 :: utf8 C57.sql), pendingResult := true }
    (Spec.seqAfter (UInt8.ofNat (Spec.frameCount (0x03 :: utf8 C57.sql)))
      (headPackets (pre ++ d :: post))) p (ps ++ [Spec.terminator status warnings]) r rfl g1 g2 g3
  rw [SM.bind_of_ok hnx]
  dsimp only
  rw [hlim, SM.ofOut_ok_bind_apply]
  exact ⟨_, rfl, rfl, rfl, rfl, rfl, hw, rfl⟩

/-- Something configured: the connection does not ask and nothing changes. -/
theorem C57_not_asked (fp : FloatParse) (c : Conn) (k : Nat)
    (ho : c.options.maxAllowedPacket = some k) : readSettings fp c = (.ok (), c) := by
  unfold readSettings
  rw [SM.get_bind_apply, ho]
  rfl

/-- With a configured limit a connection that could be made reports it, after any calls; the
connection sends exactly what the login sends. -/
theorem C57_configured (cr : Crypto) (alnum : Char → Bool) (fp : FloatParse) (c c' : Conn) (k : Nat)
    (calls : List Call) (ho : c.options.maxAllowedPacket = some k)
    (h : connect cr alnum fp c = (.ok (), c')) :
    (runCalls calls c').data.maxAllowedPacket = k ∧ login cr alnum c = (.ok (), c') := by
  rw [(runCalls_data calls c').2]
  unfold connect at h
  obtain ⟨_, c2, h1, h2⟩ := SM.bind_eq_ok.1 h
  obtain ⟨c3, h3, h4⟩ := login_ok h1
  obtain ⟨packet, hs, v, c1, h5, h6, _, rfl⟩ := handleHandshake_ok h3
  unfold Conn.fixed at h4
  simp only [Prod.mk.injEq] at h4
  obtain ⟨h7, -, -, -, -, h8, -⟩ := h4
  have h9 : c1.options = c.options := by
    have := readPacket_options c; rw [h5] at this; exact this
  rw [C57_not_asked fp c2 k (by rw [h7, h9, ho])] at h2
  injection h2 with _ h2
  subst h2
  refine ⟨?_, h1⟩
  rw [h8]
  unfold connDataOf
  rw [ho]
  rfl

/-- Without a configured limit, connecting sends the question right after the login and nothing more,
whatever the server answers. -/
theorem C57_question (cr : Crypto) (alnum : Char → Bool) (fp : FloatParse) (c c1 : Conn)
    (h : login cr alnum c = (.ok (), c1)) (hw : c1.wfaults = []) (hp : c1.pendingResult = false)
    (ho : c1.options.maxAllowedPacket = none) :
    (connect cr alnum fp c).2.tx = c1.tx ++ Spec.frames 0 (0x03 :: utf8 C57.sql) := by
  unfold connect
  rw [SM.bind_of_ok h]
  unfold readSettings
  rw [SM.get_bind_apply, ho]
  dsimp only [Option.isNone]
  rw [if_pos rfl]
  unfold askLimit query
  have hq := executeCommand_clean .query (utf8 C57.sql) c1 hp hw
  unfold C57.sql at hq ⊢
  rw [SM.bind_assoc, SM.bind_of_ok hq]
  have hro : ReadOnly (RSet.read >>= fun rs => rs.next (textReader fp mkPlain) >>= fun p =>
      match p.2 with
      | none => pure ()
      | some row => SM.ofOut (limitOf p.1.columns row) >>= fun n => storeLimit n : M Unit) := by
    refine ReadOnly.bind readOnly_read fun rs => ReadOnly.bind (readOnly_next _ rs) fun p => ?_
    split
    · exact fun _ => ⟨rfl, rfl⟩
    · refine ReadOnly.bind (fun c => ?_) fun n => ?_
      · cases limitOf p.1.columns _ <;> exact ⟨rfl, rfl⟩
      · cases n <;> exact fun _ => ⟨rfl, rfl⟩
  exact (hro _).1

-- a server that answers 67108864; the unread end of the answer is skipped by the next command
example :
    let d : Spec.ColDesc :=
      { db := [], table := [], orgTable := [], name := C57.name, orgName := [],
        charset := 63, length := 21, code := 8, flags := 160, decimals := 0 }
    let rx := Spec.framesAll 1 (Spec.resultSet [d] [Spec.lenencStr (Spec.dec 67108864)] 2 0) ++
      Spec.framesAll 1 [Spec.okPacket 0 0 2 0 []]
    let r := readSettings { f32 := fun _ => none, f64 := fun _ => none } (exConn rx)
    r.1 = .ok () ∧ r.2.data.maxAllowedPacket = 67108864 ∧
      (executeQuery "begin".toList r.2).1.map' (fun ok => ok.affectedRows) = .ok 0 := by
  decide +kernel

end Verif
