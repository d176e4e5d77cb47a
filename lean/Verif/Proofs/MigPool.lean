import Verif.Spec.MigPool
import Verif.Proofs.FillRun
import Verif.Props.C69_MigServer

/-! # Lemmas: programs on a pool, against a server -/

namespace Verif

open Spec (PoolServer MigServer MigStore SqlError Applied heldNow written Exclusive History)

/-! ### conversations -/

theorem ptalk_append {W D : Type} (S : PoolServer W D) (st : MigStore W) (a b : List (Nat × Bytes)) :
    S.talk st (a ++ b) = (S.talk st a).bind fun x => (S.talk x.1 b).map fun y =>
      (y.1, fun j => x.2 j ++ y.2 j) := by
  induction a generalizing st with
  | nil =>
    rw [List.nil_append, Spec.PoolServer.talk]
    simp only [Option.bind_some, List.nil_append]
    cases S.talk st b <;> rfl
  | cons m a ih =>
    obtain ⟨i, m⟩ := m
    rw [List.cons_append, Spec.PoolServer.talk, Spec.PoolServer.talk]
    cases S.react i st m with
    | none => rfl
    | some x =>
      simp only [Option.bind_eq_bind, Option.bind_some, ih]
      cases S.talk x.1 a with
      | none => rfl
      | some y =>
        simp only [Option.bind_some]
        cases S.talk y.1 b with
        | none => rfl
        | some z =>
          simp only [Option.map_some, Option.bind_some]
          congr 2
          funext j
          split <;> simp

theorem written_append (a b : List (Nat × Bytes)) : written (a ++ b) = written a ++ written b := by
  simp [written]

theorem written_fillLog (i : Nat) (cmds : List Bytes) :
    written (fillLog (cmds.map fun m => (i, m))) = (Spec.commands cmds).map fun b => (i, b) := by
  induction cmds with
  | nil => rfl
  | cons m cmds ih =>
    have e1 : written (fillLog ((m :: cmds).map fun m => (i, m))) =
        (Spec.frames 0 m).map (fun b => (i, b)) ++ written (fillLog (cmds.map fun m => (i, m))) := rfl
    have e2 : Spec.commands (m :: cmds) = Spec.frames 0 m ++ Spec.commands cmds := rfl
    rw [e1, e2, ih, List.map_append]

/-- what is written by a call. -/
theorem written_on {α : Type} {i : Nat} {x : M α} {s : Conns} {o : Out Error α} {c : Conn} {bs : Bytes}
    (h : x (s.conn i) = (o, c)) (ht : c.tx = (s.conn i).tx ++ bs) :
    (on i x s).1 = o ∧ (on i x s).2.conn = (fun j => if j = i then c else s.conn j) ∧
      written (on i x s).2.log = written s.log ++ bs.map fun b => (i, b) := by
  unfold on
  rw [h]
  refine ⟨rfl, rfl, ?_⟩
  dsimp only
  rw [ht, List.drop_left]
  split
  · rename_i h0; subst h0; simp
  · rw [written_append]; simp [written]

/-! ### the migrations' table, seen from one connection -/

section
variable {W D : Type} (S : PoolServer W D)

theorem react_keeps {st st' : MigStore D} {cmd : Bytes} {ps : List Bytes} (h : Spec.aboutMig cmd = true)
    (hr : S.mig.react st cmd = some (st', ps)) : st'.world = st.world := by
  match cmd, h with
  | [], h => cases h
  | b :: bs, h =>
    by_cases hb : b = 0x03
    · subst hb
      rw [Spec.MigServer.react] at hr
      rw [Spec.aboutMig] at h
      cases hu : fromUtf8 bs with
      | none => rw [hu] at h; cases h
      | some text =>
        rw [hu] at h hr
        simp only [Option.bind_eq_bind, Option.bind_some] at h hr
        split at hr
        · cases hr; rfl
        · split at hr <;> cases hr <;> rfl
        · rename_i h1 h2
          have key : ∀ x n, S.mig.execute st text = .ok (x, n) → x.world = st.world := by
            intro x n hx
            unfold Spec.MigServer.execute at hx
            split at hx
            · split at hx <;> cases hx; rfl
            · split at hx
              · cases hx
              · split at hx <;> cases hx; rfl
            · split at hx <;> cases hx; rfl
            · rename_i g1 g2 g3
              exfalso
              match hm : (Spec.tokens text).bind Spec.readMig with
              | none => rw [hm] at h; cases h
              | some .tableExists => exact h1 hm
              | some .select => exact h2 hm
              | some .create => exact g1 hm
              | some (.insert a b c n) => exact g2 a b c n hm
              | some (.delete a b c n) => exact g3 a b c n hm
          split at hr
          · rename_i x n hx
            cases hr
            exact key _ _ hx
          · cases hr; rfl
    · unfold Spec.aboutMig at h
      split at h
      · rename_i heq
        cases heq
        exact absurd rfl hb
      · cases h

/-- the conversation about the table, on one of the connections. -/
theorem ptalk_mig (i : Nat) (w : W) (cmds : List Bytes) (t t' : Option (List MigKey)) (d : D) (sent rec : Bytes)
    (hc : ∀ m ∈ cmds, Spec.aboutMig m = true)
    (h : S.mig.talk ⟨t, S.view w⟩ cmds = some (⟨t', d⟩, sent, rec)) :
    S.talk ⟨t, w⟩ (cmds.map fun m => (i, m)) = some (⟨t', w⟩, fun j => if j = i then sent else []) := by
  induction cmds generalizing t sent rec with
  | nil =>
    cases h
    rw [List.map_nil, Spec.PoolServer.talk]
    congr 2
    funext j
    simp
  | cons m cmds ih =>
    rw [Spec.MigServer.talk] at h
    cases hr : S.mig.react ⟨t, S.view w⟩ m with
    | none => rw [hr] at h; cases h
    | some x =>
      obtain ⟨st1, ps⟩ := x
      rw [hr] at h
      have hw := react_keeps S (hc m (List.mem_cons_self ..)) hr
      obtain ⟨t1, d1⟩ := st1
      dsimp only at hw
      subst hw
      simp only [Option.bind_eq_bind, Option.bind_some] at h
      cases ht : S.mig.talk ⟨t1, S.view w⟩ cmds with
      | none => rw [ht] at h; cases h
      | some y =>
        obtain ⟨st2, sent2, rec2⟩ := y
        rw [ht] at h
        simp only [Option.bind_some] at h
        cases h
        have := ih t1 sent2 rec2 (fun m' hm' => hc m' (List.mem_cons_of_mem _ hm')) ht
        rw [List.map_cons, Spec.PoolServer.talk, Spec.PoolServer.react,
          if_pos (hc m (List.mem_cons_self ..)), hr]
        simp only [Option.bind_eq_bind, Option.bind_some]
        rw [this]
        simp only [Option.bind_some]
        congr 2
        funext j
        split <;> rfl

/-! ### one side of a conversation -/

/-- the program `x`, with this history of the pool and this view of the migrator, is one side of a
conversation with the server that turns `st` into `st'`. -/
def Chat {α : Type} (pick : List PoolUse → Nat) (hist : List PoolUse) (st : MigStore W) (a : Version → List Str)
    (x : SM PoolMig Error α) (o : Out Error α) (st' : MigStore W) (a' : Version → List Str)
    (hist' : List PoolUse) : Prop :=
  ∃ cmds sent, S.talk st cmds = some (st', sent) ∧
    ∀ (cs : Conns) (r : Nat → List Rx), (∀ i, MigRest S.mig (cs.conn i) (rxOf (sent i) ++ r i)) →
      ∃ cs', x ⟨cs, hist, pick, a⟩ = (o, ⟨cs', hist', pick, a'⟩) ∧
        written cs'.log = written cs.log ++ written (fillLog cmds) ∧
        ((∃ v, o = .ok v) → ∀ i, MigRest S.mig (cs'.conn i) (r i))

variable {S} {pick : List PoolUse → Nat}

theorem Chat.done {α : Type} {hist : List PoolUse} {st : MigStore W} {a : Version → List Str} {v : α}
    {a' : Version → List Str} {x : SM PoolMig Error α}
    (h : ∀ cs, x ⟨cs, hist, pick, a⟩ = (.ok v, ⟨cs, hist, pick, a'⟩)) :
    Chat S pick hist st a x (.ok v) st a' hist :=
  ⟨[], fun _ => [], rfl, fun cs r hc => ⟨cs, h cs, by simp [fillLog, written], fun _ i => hc i⟩⟩

theorem Chat.bind {α β : Type} {h h1 h2 : List PoolUse} {st st1 st2 : MigStore W} {a a1 a2 : Version → List Str}
    {x : SM PoolMig Error α} {v : α} {f : α → SM PoolMig Error β} {o : Out Error β}
    (hx : Chat S pick h st a x (.ok v) st1 a1 h1) (hf : Chat S pick h1 st1 a1 (f v) o st2 a2 h2) :
    Chat S pick h st a (x >>= f) o st2 a2 h2 := by
  obtain ⟨c1, s1, t1, k1⟩ := hx
  obtain ⟨c2, s2, t2, k2⟩ := hf
  refine ⟨c1 ++ c2, fun j => s1 j ++ s2 j, ?_, fun cs r hc => ?_⟩
  · rw [ptalk_append, t1, Option.bind_some, t2]; rfl
  · obtain ⟨cs1, e1, l1, r1⟩ := k1 cs (fun i => rxOf (s2 i) ++ r i) fun i => by
      have := hc i
      rw [rxOf_append, List.append_assoc] at this
      exact this
    obtain ⟨cs2, e2, l2, r2⟩ := k2 cs1 r (r1 ⟨v, rfl⟩)
    refine ⟨cs2, ?_, ?_, r2⟩
    · rw [SM.bind_of_ok e1]; exact e2
    · rw [l2, l1, fillLog_append, written_append, List.append_assoc]

theorem Chat.stop {α β : Type} {h h1 : List PoolUse} {st st1 : MigStore W} {a a1 : Version → List Str}
    {x : SM PoolMig Error α} {e : Error} {f : α → SM PoolMig Error β}
    (hx : Chat S pick h st a x (.err e) st1 a1 h1) :
    Chat S pick h st a (x >>= f) (.err e) st1 a1 h1 := by
  obtain ⟨c1, s1, t1, k1⟩ := hx
  refine ⟨c1, s1, t1, fun cs r hc => ?_⟩
  obtain ⟨cs1, e1, l1, -⟩ := k1 cs r hc
  exact ⟨cs1, SM.bind_of_err e1, l1, fun ⟨v, hv⟩ => (nomatch hv)⟩

theorem Chat.congr {α : Type} {h h1 : List PoolUse} {st st1 : MigStore W} {a a1 : Version → List Str}
    {x y : SM PoolMig Error α} {o : Out Error α}
    (hx : Chat S pick h st a x o st1 a1 h1) (hy : ∀ cs, y ⟨cs, h, pick, a⟩ = x ⟨cs, h, pick, a⟩) :
    Chat S pick h st a y o st1 a1 h1 := by
  obtain ⟨c1, s1, t1, k1⟩ := hx
  refine ⟨c1, s1, t1, fun cs r hc => ?_⟩
  obtain ⟨cs1, e1, l1⟩ := k1 cs r hc
  exact ⟨cs1, (hy cs).trans e1, l1⟩

def unwrapOut {α : Type} : Out Error α → Out Error α
  | .err _ => .panic
  | y => y

theorem Chat.unwrap {α : Type} {h h1 : List PoolUse} {st st1 : MigStore W} {a a1 : Version → List Str}
    {x : SM PoolMig Error α} {o : Out Error α} (hx : Chat S pick h st a x o st1 a1 h1) :
    Chat S pick h st a x.unwrap (unwrapOut o) st1 a1 h1 := by
  obtain ⟨c1, s1, t1, k1⟩ := hx
  refine ⟨c1, s1, t1, fun cs r hc => ?_⟩
  obtain ⟨cs1, e1, l1, r1⟩ := k1 cs r hc
  refine ⟨cs1, ?_, l1, fun ⟨v, hv⟩ => ?_⟩
  · unfold SM.unwrap
    rw [e1]
    cases o <;> rfl
  · cases o with
    | ok v => exact r1 ⟨v, rfl⟩
    | err e => cases hv
    | panic => cases hv

/-! ### the pool -/

/-- nothing is handed out. -/
structure Idle (pick : List PoolUse → Nat) (hist : List PoolUse) : Prop where
  history : History pick hist
  held : heldNow hist = []

theorem heldNow_got (us : List PoolUse) (i : Nat) : heldNow (us ++ [.got i]) = i :: heldNow us := by
  simp [heldNow]

theorem heldNow_back (us : List PoolUse) (i : Nat) : heldNow (us ++ [.back i]) = (heldNow us).erase i := by
  simp [heldNow]

theorem Idle.once {hist : List PoolUse} (h : Idle pick hist) :
    Idle pick (hist ++ [.got (pick hist)] ++ [.back (pick hist)]) := by
  refine ⟨.back (.got h.history) ?_, ?_⟩
  · rw [heldNow_got]; exact List.mem_cons_self ..
  · rw [heldNow_back, heldNow_got, h.held]; simp

/-- a call on a connection of the pool that is a conversation on it. -/
theorem Chat.getTalk {α : Type} {hist : List PoolUse} {st st' : MigStore W}
    {a : Version → List Str} {x : M α} {o : Out Error α} {cmds : List Bytes} {sent : Bytes}
    (h : S.talk st (cmds.map fun m => (pick hist, m)) = some (st', fun j => if j = pick hist then sent else []))
    (hx : ∀ (c : Conn) (r : List Rx), MigRest S.mig c (rxOf sent ++ r) → ∃ q, x c = (o, { c with
      rx := r
      tx := c.tx ++ Spec.commands cmds
      seqId := q })) :
    Chat S pick hist st a (withConn fun i => calls (on i x)) o st' a
      (hist ++ [.got (pick hist)] ++ [.back (pick hist)]) := by
  refine ⟨_, _, h, fun cs r hr => ?_⟩
  have h0 := hr (pick hist)
  rw [if_pos rfl] at h0
  obtain ⟨q, hq⟩ := hx _ _ h0
  obtain ⟨e1, e2, e3⟩ := written_on hq rfl
  refine ⟨(on (pick hist) x cs).2, ?_, ?_, fun _ i => ?_⟩
  · unfold withConn calls
    dsimp only
    rw [e1]
  · rw [e3, written_fillLog]
  · rw [e2]
    dsimp only
    split
    · rename_i hi
      subst hi
      exact h0.next _ _ _
    · rename_i hi
      have := hr i
      rw [if_neg hi] at this
      exact this

/-- a call on a connection of the pool that is a conversation about the table. -/
theorem Chat.getOn {α : Type} {hist : List PoolUse} {t t' : Option (List MigKey)} {w : W} {d : D}
    {a : Version → List Str} {x : M α} {o : Out Error α} {cmds : List Bytes} {sent rec : Bytes}
    (hc : ∀ m ∈ cmds, Spec.aboutMig m = true)
    (h : S.mig.talk ⟨t, S.view w⟩ cmds = some (⟨t', d⟩, sent, rec))
    (hx : ∀ (c : Conn) (r : List Rx), MigRest S.mig c (rxOf sent ++ r) → ∃ q, x c = (o, { c with
      rx := r
      tx := c.tx ++ Spec.commands cmds
      seqId := q })) :
    Chat S pick hist ⟨t, w⟩ a (withConn fun i => calls (on i x)) o ⟨t', w⟩ a
      (hist ++ [.got (pick hist)] ++ [.back (pick hist)]) :=
  Chat.getTalk (ptalk_mig S (pick hist) w cmds t t' d sent rec hc h) hx

theorem ptalk_one (st st' : MigStore W) (i : Nat) (m : Bytes) (ps : List Bytes)
    (h : S.react i st m = some (st', ps)) :
    S.talk st ([m].map fun m => (i, m)) = some (st', fun j =>
      if j = i then Spec.framesAll (UInt8.ofNat (Spec.frameCount m)) ps else []) := by
  rw [List.map_cons, List.map_nil, Spec.PoolServer.talk, h]
  simp [Spec.PoolServer.talk]

/-! ### a migration -/

attribute [local irreducible] insertSql deleteSql

variable (S) in
/-- the program does to the database what `f` says, whichever connections it gets. -/
def Realises (x : SM PoolMig Error Unit) (f : Spec.Step D) : Prop :=
  ∀ (pick : List PoolUse → Nat) (hist : List PoolUse) (st : MigStore W) (a : Version → List Str),
    Exclusive pick → Idle pick hist →
    ∃ w' hist', Idle pick hist' ∧ S.view w' = (f (S.view st.world)).1 ∧
      Chat S pick hist st a x (migOutcome S.mig (f (S.view st.world)).2) ⟨st.table, w'⟩ a hist'

theorem about_of {sql : Str} {c : Spec.MigCmd} (h : (Spec.tokens sql).bind Spec.readMig = some c) :
    Spec.aboutMig (0x03 :: utf8 sql) = true := by
  rw [Spec.aboutMig, fromUtf8_utf8, Option.bind_some, h]
  rfl

theorem getExecute_eq (sql : Str) : getExecute sql = withConn fun i => calls (on i (Spec.execAll [sql])) := by
  unfold getExecute
  congr 1
  funext i s
  unfold calls
  congr 1
  all_goals
    rw [execAll_single]
    simp only [SM.bind_apply]
    unfold on
    simp only [SM.bind_apply]
    cases hx : executeQuery sql (s.conns.conn i) with
    | mk o c => cases o <;> rfl

/-- writing a record. -/
theorem chat_record (hS : FairMig S.mig) {sql : Str} {cmd : Spec.MigCmd}
    (hr : (Spec.tokens sql).bind Spec.readMig = some cmd) (he : IsExec sql) (hist : List PoolUse)
    (t : Option (List MigKey)) (w : W) (a : Version → List Str) :
    ∃ t' e, (match S.mig.execute ⟨t, S.view w⟩ sql with
        | .ok x => t' = x.1.table ∧ e = none
        | .error e' => t' = t ∧ e = some e') ∧
      Chat S pick hist ⟨t, w⟩ a (getExecute sql) (migOutcome S.mig e) ⟨t', w⟩ a
        (hist ++ [.got (pick hist)] ++ [.back (pick hist)]) := by
  obtain ⟨⟨t', d'⟩, e, sent, h1, h2, h3⟩ := exec_one S.mig hS ⟨t, S.view w⟩ sql he
  refine ⟨t', e, ?_, ?_⟩
  · split <;> rename_i hx <;> rw [hx] at h2
    · exact ⟨by rw [← h2.1], h2.2⟩
    · exact ⟨congrArg MigStore.table h2.1, h2.2⟩
  · rw [getExecute_eq]
    exact Chat.getOn (by simpa using about_of hr) h1 h3

theorem chat_insert (hS : FairMig S.mig) {k : MigKey} (hk : Plain k) (hist : List PoolUse) (rows : List MigKey) (w : W)
    (a : Version → List Str) :
    Chat S pick hist ⟨some rows, w⟩ a (getExecute (insertSql k))
      (match S.mig.inserted (S.view w) rows k.1.major.toNat k.1.minor.toNat k.1.patch.toNat k.2 with
        | .ok _ => .ok ()
        | .error e => .err (migRefusal S.mig e))
      ⟨some (match S.mig.inserted (S.view w) rows k.1.major.toNat k.1.minor.toNat k.1.patch.toNat k.2 with
        | .ok rows' => rows'
        | .error _ => rows), w⟩ a
      (hist ++ [.got (pick hist)] ++ [.back (pick hist)]) := by
  obtain ⟨t', e, h1, h2⟩ := chat_record (pick := pick) hS (reads_insert hk) (isExec_insert hk) hist (some rows) w a
  rw [execute_insert S.mig hk] at h1
  cases hi : S.mig.inserted (S.view w) rows k.1.major.toNat k.1.minor.toNat k.1.patch.toNat k.2 with
  | ok rows' =>
    rw [hi] at h1
    obtain ⟨rfl, rfl⟩ := h1
    exact h2
  | error e' =>
    rw [hi] at h1
    obtain ⟨rfl, rfl⟩ := h1
    exact h2

theorem chat_delete (hS : FairMig S.mig) {k : MigKey} (hk : Plain k) (hist : List PoolUse) (rows : List MigKey) (w : W)
    (a : Version → List Str) :
    Chat S pick hist ⟨some rows, w⟩ a (getExecute (deleteSql k)) (.ok ())
      ⟨some (rows.filter fun j => !S.mig.clash j k), w⟩ a
      (hist ++ [.got (pick hist)] ++ [.back (pick hist)]) := by
  obtain ⟨t', e, h1, h2⟩ := chat_record (pick := pick) hS (reads_delete hk) (isExec_delete hk) hist (some rows) w a
  rw [execute_delete S.mig hk] at h1
  obtain ⟨rfl, rfl⟩ := h1
  exact h2

/-- the server executes this statement on any connection, and does `f` to the database. -/
def AnswersTo (S : PoolServer W D) (sql : Str) (f : Spec.Step D) : Prop :=
  ∀ i w, ∃ w', S.view w' = (f (S.view w)).1 ∧
    match (f (S.view w)).2 with
    | none => ∃ n, S.other i w (0x03 :: utf8 sql) = some (w', [S.mig.okAnswer n])
    | some e => S.other i w (0x03 :: utf8 sql) = some (w', [S.mig.errAnswer e]) ∧
        (utf8 e.state).length = 5 ∧ e.code ≠ 0xFFFF

theorem realises_execute (hS : FairMig S.mig) {sql : Str} (hf : Foreign sql) {f : Spec.Step D}
    (h : AnswersTo S sql f) : Realises S (getExecute sql) f := by
  intro pick hist st a hx hi
  obtain ⟨t, w⟩ := st
  obtain ⟨w', h1, h2⟩ := h (pick hist) w
  have hab : Spec.aboutMig (0x03 :: utf8 sql) = false := by
    rw [Spec.aboutMig, fromUtf8_utf8, Option.bind_some, show (Spec.tokens sql).bind Spec.readMig = none from hf]
    rfl
  refine ⟨w', _, hi.once, h1, ?_⟩
  dsimp only
  rw [getExecute_eq]
  cases he : (f (S.view w)).2 with
  | none =>
    rw [he] at h2
    obtain ⟨n, h2⟩ := h2
    refine Chat.getTalk (cmds := [0x03 :: utf8 sql]) (ptalk_one _ _ _ (0x03 :: utf8 sql) [S.mig.okAnswer n] ?_) fun c r hc => ?_
    · rw [Spec.PoolServer.react, hab, h2]
      rfl
    · have hrx := hc.rx
      rw [framesAll_one] at hrx
      obtain ⟨q, h3⟩ := C15_execute_query c r (S.mig.affected n) 0 S.mig.status S.mig.warnings S.mig.message sql hc.pending
        hc.faults hS.message hc.track hrx
      refine ⟨q, ?_⟩
      rw [execAll_cons, h3]
      simp [Spec.execAll, migOutcome, Spec.commands]
  | some e =>
    rw [he] at h2
    obtain ⟨h2, e1, e2⟩ := h2
    refine Chat.getTalk (cmds := [0x03 :: utf8 sql]) (ptalk_one _ _ _ (0x03 :: utf8 sql) [S.mig.errAnswer e] ?_) fun c r hc => ?_
    · rw [Spec.PoolServer.react, hab, h2]
      rfl
    · have hrx := hc.rx
      rw [framesAll_one] at hrx
      have ha : errAnswer c e.code e.state e.msg = S.mig.errAnswer e := by
        unfold errAnswer Spec.MigServer.errAnswer stateOf
        rw [hc.p41]
      obtain ⟨q, h3⟩ := C14_execute_query c r e.code e.state e.msg sql hc.pending
        hc.faults e1 (.inl e2) (by rw [ha]; exact hrx)
      refine ⟨q, ?_⟩
      rw [execAll_cons, h3]
      simp only [migOutcome, migRefusal, errSeen, stateOf, hc.p41]
      simp [Spec.commands]

/-! ### up -/

theorem upOne_pool {up down : MigKey → SM PoolMig Error Unit} {k : MigKey} {a : Version → List Str}
    (h : ¬ Applied a k) (cs : Conns) (hist : List PoolUse) :
    (pooled up down).upOne k ⟨cs, hist, pick, a⟩ = (do
      up k
      SM.modify fun s => { s with applied := insertApplied s.applied k }
      getExecute (insertSql k) : SM PoolMig Error Unit) ⟨cs, hist, pick, a⟩ := by
  unfold MigEnv.upOne
  rw [SM.get_bind_apply, show (pooled up down).applied ⟨cs, hist, pick, a⟩ = a from rfl, getApplied_none'.2 h]
  rfl

theorem upOne_pool_skip {up down : MigKey → SM PoolMig Error Unit} {k : MigKey} {a : Version → List Str}
    (h : Applied a k) (cs : Conns) (hist : List PoolUse) :
    (pooled up down).upOne k ⟨cs, hist, pick, a⟩ = (.ok (), ⟨cs, hist, pick, a⟩) := by
  unfold MigEnv.upOne
  rw [SM.get_bind_apply, show (pooled up down).applied ⟨cs, hist, pick, a⟩ = a from rfl]
  match hg : getApplied a k with
  | some _ => rfl
  | none => exact absurd h (getApplied_none'.1 hg)

theorem chat_up (hS : FairMig S.mig) {up down : MigKey → SM PoolMig Error Unit} {f : MigKey → Spec.Step D}
    (hx : Exclusive pick) (ks : List MigKey) (hn : ks.Nodup) (hp : ∀ k ∈ ks, Plain k)
    (hu : ∀ k ∈ ks, Realises S (up k) (f k)) (hist : List PoolUse) (hi : Idle pick hist) (rows : List MigKey) (w : W)
    (a : Version → List Str) :
    let todo := ks.filter fun k => !decide (Applied a k)
    let y := S.mig.applySteps f (S.view w) rows todo
    ∃ w' hist' a', Idle pick hist' ∧ S.view w' = y.1 ∧
      Chat S pick hist ⟨some rows, w⟩ a ((pooled up down).upKeys ks) (migOutcome S.mig y.2.2) ⟨some y.2.1, w'⟩ a' hist' ∧
      (∀ j, Applied a' j ↔ Applied a j ∨ j ∈ S.mig.stepsTaken f (S.view w) rows todo) ∧ (Tidy a → Tidy a') := by
  induction ks generalizing hist rows w a with
  | nil =>
    exact ⟨w, hist, a, hi, rfl, Chat.done fun cs => rfl, fun j => by simp [Spec.MigServer.stepsTaken], id⟩
  | cons k ks ih =>
    rw [List.nodup_cons] at hn
    have hp' := fun j hj => hp j (List.mem_cons_of_mem _ hj)
    have hu' := fun j hj => hu j (List.mem_cons_of_mem _ hj)
    intro todo y
    by_cases hk : Applied a k
    · have ht : todo = ks.filter fun k => !decide (Applied a k) := by
        show List.filter _ _ = _
        rw [List.filter_cons_of_neg (by simp [hk])]
      obtain ⟨w', hist', a', k1, k2, k3, k4⟩ := ih hn.2 hp' hu' hist hi rows w a
      rw [← ht] at k2 k3 k4
      exact ⟨w', hist', a', k1, k2, Chat.bind (Chat.done fun cs => upOne_pool_skip hk cs hist) k3, k4⟩
    · have ht : todo = k :: ks.filter fun k => !decide (Applied a k) := by
        show List.filter _ _ = _
        rw [List.filter_cons_of_pos (by simp [hk])]
      have hrest : (ks.filter fun j => !decide (Applied (insertApplied a k) j)) = ks.filter fun j => !decide (Applied a j) := by
        refine List.filter_congr fun j hj => ?_
        have : j ≠ k := fun h => hn.1 (h ▸ hj)
        simp [applied_insert, this]
      have hy : y = S.mig.applySteps f (S.view w) rows todo := rfl
      clear_value y todo
      subst ht
      obtain ⟨w1, h1, i1, v1, c1⟩ := hu k (List.mem_cons_self ..) pick hist ⟨some rows, w⟩ a hx hi
      have hstep : Chat S pick hist ⟨some rows, w⟩ a ((pooled up down).upOne k) = Chat S pick hist ⟨some rows, w⟩ a (do
          up k
          SM.modify fun s => { s with applied := insertApplied s.applied k }
          getExecute (insertSql k) : SM PoolMig Error Unit) := by
        funext o st' a' h'
        exact propext ⟨fun h => h.congr fun cs => (upOne_pool hk cs hist).symm, fun h => h.congr fun cs => upOne_pool hk cs hist⟩
      dsimp only at c1
      rw [Spec.MigServer.applySteps] at hy
      rw [Spec.MigServer.stepsTaken]
      cases hf : f k (S.view w) with
      | mk d e =>
      rw [hf] at c1 v1 hy
      cases e with
      | some e =>
        dsimp only at hy ⊢
        subst hy
        refine ⟨w1, h1, a, i1, v1, ?_, fun j => by simp, id⟩
        refine Chat.stop ?_
        rw [hstep]
        exact Chat.stop c1
      | none =>
        dsimp only at hy v1 c1 ⊢
        have c2 := chat_insert (pick := pick) hS (hp k (List.mem_cons_self ..)) h1 rows w1 (insertApplied a k)
        rw [v1] at c2
        have c3 : ∀ (o : Out Error Unit) st' h', Chat S pick h1 ⟨some rows, w1⟩ (insertApplied a k)
            (getExecute (insertSql k)) o st' (insertApplied a k) h' →
            Chat S pick hist ⟨some rows, w⟩ a ((pooled up down).upOne k) o st' (insertApplied a k) h' := by
          intro o st' h' hc
          rw [hstep]
          exact Chat.bind c1 (Chat.bind (Chat.done fun cs => rfl) hc)
        have c4 := c3 _ _ _ c2
        cases hins : S.mig.inserted d rows k.1.major.toNat k.1.minor.toNat k.1.patch.toNat k.2 with
        | error e =>
          rw [hins] at c4 hy
          dsimp only at hy c4 ⊢
          subst hy
          refine ⟨w1, _, insertApplied a k, i1.once, v1, Chat.stop c4, fun j => ?_, fun ht => tidy_insert ht hk⟩
          rw [applied_insert]
          simp
        | ok rows' =>
          rw [hins] at c4 hy
          dsimp only at hy c4 ⊢
          obtain ⟨w', hist', a', k1, k2, k3, k4, k5⟩ := ih hn.2 hp' hu' _ i1.once rows' w1 (insertApplied a k)
          rw [hrest, v1, ← hy] at k2 k3
          rw [hrest, v1] at k4
          refine ⟨w', hist', a', k1, k2, Chat.bind c4 k3, fun j => ?_, fun ht => k5 (tidy_insert ht hk)⟩
          rw [k4 j, applied_insert, List.mem_cons]
          exact or_assoc

/-! ### down -/

theorem downOne_pool {up down : MigKey → SM PoolMig Error Unit} {k : MigKey} {a : Version → List Str} {i : Nat}
    (h : getApplied a k = some i) (cs : Conns) (hist : List PoolUse) :
    (pooled up down).downOne k ⟨cs, hist, pick, a⟩ = (do
      down k
      SM.modify fun s => { s with applied := fun v => if v = k.1 then swapRemove (s.applied v) i else s.applied v }
      getExecute (deleteSql k) : SM PoolMig Error Unit) ⟨cs, hist, pick, a⟩ := by
  unfold MigEnv.downOne
  rw [SM.get_bind_apply, show (pooled up down).applied ⟨cs, hist, pick, a⟩ = a from rfl, h]
  rfl

theorem downOne_pool_skip {up down : MigKey → SM PoolMig Error Unit} {k : MigKey} {a : Version → List Str}
    (h : ¬ Applied a k) (cs : Conns) (hist : List PoolUse) :
    (pooled up down).downOne k ⟨cs, hist, pick, a⟩ = (.ok (), ⟨cs, hist, pick, a⟩) := by
  unfold MigEnv.downOne
  rw [SM.get_bind_apply, show (pooled up down).applied ⟨cs, hist, pick, a⟩ = a from rfl, getApplied_none'.2 h]
  rfl

theorem chat_down (hS : FairMig S.mig) {up down : MigKey → SM PoolMig Error Unit} {f : MigKey → Spec.Step D}
    (hx : Exclusive pick) (ks : List MigKey) (hn : ks.Nodup) (hp : ∀ k ∈ ks, Plain k)
    (hu : ∀ k ∈ ks, Realises S (down k) (f k)) (hist : List PoolUse) (hi : Idle pick hist) (rows : List MigKey) (w : W)
    (a : Version → List Str) (ha : Tidy a) :
    let todo := ks.filter fun k => decide (Applied a k)
    let y := S.mig.revertSteps f (S.view w) rows todo
    ∃ w' hist' a', Idle pick hist' ∧ S.view w' = y.1 ∧
      Chat S pick hist ⟨some rows, w⟩ a ((pooled up down).downKeys ks) (migOutcome S.mig y.2.2) ⟨some y.2.1, w'⟩ a' hist' ∧
      (∀ j, Applied a' j ↔ Applied a j ∧ j ∉ Spec.MigServer.stepsUndone f (S.view w) todo) ∧ Tidy a' := by
  induction ks generalizing hist rows w a with
  | nil =>
    exact ⟨w, hist, a, hi, rfl, Chat.done fun cs => rfl, fun j => by simp [Spec.MigServer.stepsUndone], ha⟩
  | cons k ks ih =>
    rw [List.nodup_cons] at hn
    have hp' := fun j hj => hp j (List.mem_cons_of_mem _ hj)
    have hu' := fun j hj => hu j (List.mem_cons_of_mem _ hj)
    intro todo y
    by_cases hk : Applied a k
    · have ht : todo = k :: ks.filter fun k => decide (Applied a k) := by
        show List.filter _ _ = _
        rw [List.filter_cons_of_pos (by simp [hk])]
      obtain ⟨tidy1, spec1⟩ := without_spec (a := a) (k := k) ha
      have hrest : (ks.filter fun j => decide (Applied (without a k) j)) = ks.filter fun j => decide (Applied a j) := by
        refine List.filter_congr fun j hj => ?_
        have : j ≠ k := fun h => hn.1 (h ▸ hj)
        simp [spec1, this]
      have hy : y = S.mig.revertSteps f (S.view w) rows todo := rfl
      clear_value y todo
      subst ht
      obtain ⟨i, hg⟩ : ∃ i, getApplied a k = some i := by
        cases hg : getApplied a k with
        | some i => exact ⟨i, rfl⟩
        | none => exact absurd hk (getApplied_none'.1 hg)
      have hwo : without a k = fun v => if v = k.1 then swapRemove (a v) i else a v := by
        unfold without
        rw [hg]
      obtain ⟨w1, h1, i1, v1, c1⟩ := hu k (List.mem_cons_self ..) pick hist ⟨some rows, w⟩ a hx hi
      dsimp only at c1
      rw [Spec.MigServer.revertSteps] at hy
      rw [Spec.MigServer.stepsUndone]
      cases hf : f k (S.view w) with
      | mk d e =>
      rw [hf] at c1 v1 hy
      cases e with
      | some e =>
        dsimp only at hy ⊢
        subst hy
        refine ⟨w1, h1, a, i1, v1, ?_, fun j => by simp, ha⟩
        refine Chat.stop (Chat.congr ?_ fun cs => downOne_pool hg cs hist)
        exact Chat.stop c1
      | none =>
        dsimp only at hy v1 c1 ⊢
        have c2 := chat_delete (pick := pick) hS (hp k (List.mem_cons_self ..)) h1 rows w1 (without a k)
        have c4 : Chat S pick hist ⟨some rows, w⟩ a ((pooled up down).downOne k) (.ok ()) _ (without a k) _ :=
          Chat.congr (Chat.bind c1 (Chat.bind (Chat.done fun cs => by rw [hwo]; rfl) c2)) fun cs => downOne_pool hg cs hist
        obtain ⟨w', hist', a', k1, k2, k3, k4, k5⟩ := ih hn.2 hp' hu' _ i1.once
          (rows.filter fun j => !S.mig.clash j k) w1 (without a k) tidy1
        rw [hrest, v1] at k2 k3 k4
        have hy' : y = S.mig.revertSteps f d (rows.filter fun j => !S.mig.clash j k)
          (ks.filter fun j => decide (Applied a j)) := hy
        rw [← hy'] at k2 k3
        refine ⟨w', hist', a', k1, k2, Chat.bind c4 k3, fun j => ?_, k5⟩
        rw [k4 j, spec1 j, List.mem_cons, not_or, and_assoc]
    · have ht : todo = ks.filter fun k => decide (Applied a k) := by
        show List.filter _ _ = _
        rw [List.filter_cons_of_neg (by simp [hk])]
      obtain ⟨w', hist', a', k1, k2, k3, k4⟩ := ih hn.2 hp' hu' hist hi rows w a ha
      rw [← ht] at k2 k3 k4
      exact ⟨w', hist', a', k1, k2, Chat.bind (Chat.done fun cs => downOne_pool_skip hk cs hist) k3, k4⟩

end

end Verif
