import Verif.Proofs.Active
import Verif.Props.C12_Iteration

/-!
# C52 — only set fields are written, referenced rows first

`Spec.Inserted m log id`: `log` are the rows to be inserted for the tree `m`, in this order, with the
ids the server assigned.  `Spec.Executed text c log c'`: preparing and executing the statement `text`
with the values of each row in turn leads from `c` to `c'`.
-/

namespace Verif

/-- the statement for a row, as the server reads it. -/
theorem insertText_reads (table : Str) (names : List Str) (ht : '`' ∉ table) (hn : ∀ n ∈ names, '`' ∉ n) :
    ∃ ts, Spec.tokens (insertText table names) = some ts ∧
      Spec.parseInsert ts = some { table := table, columns := names, marks := names.length } := by
  obtain ⟨ts, h1, h2, -⟩ := insert_reads (names.map fun n => (n, .null)) table ht (by
    intro v hv
    obtain ⟨n, h, rfl⟩ := List.mem_map.1 hv
    exact hn n h)
  refine ⟨ts, h1, ?_⟩
  rw [h2, List.map_map, List.length_map]
  congr 2
  exact List.map_id names

/-- For every connection, whatever the server answers: inserting succeeds exactly if the rows of the
tree are executed one after the other; the statement of each row is read by the server as an insert of
exactly its fields. -/
theorem C52_insert : ∃ text : Str → List Str → Str,
    (∀ table names, '`' ∉ table → (∀ n ∈ names, '`' ∉ n) →
      ∃ ts, Spec.tokens (text table names) = some ts ∧
        Spec.parseInsert ts = some { table := table, columns := names, marks := names.length }) ∧
    ∀ (m : ActiveModel), Spec.allDistinct m → ∀ (c c' : Conn) (id : UInt64),
      m.insert c = (.ok id, c') ↔ ∃ log, Spec.Inserted m log id ∧ Spec.Executed text c log c' := by
  exact ⟨insertText, insertText_reads, fun m hd c c' id => insert_ok m hd c c' id⟩

/-- Inserting fails with `e` exactly if the rows of the tree before some row have been executed as above
and that row fails with `e`: a set field of it cannot be converted (the first one in order, and nothing of
the row is sent), or its statement cannot be prepared, or it cannot be executed; nothing is sent after
the failure. -/
theorem C52_insert_fails : ∃ text : Str → List Str → Str,
    (∀ table names, '`' ∉ table → (∀ n ∈ names, '`' ∉ n) →
      ∃ ts, Spec.tokens (text table names) = some ts ∧
        Spec.parseInsert ts = some { table := table, columns := names, marks := names.length }) ∧
    ∀ (m : ActiveModel), Spec.allDistinct m → ∀ (c c' : Conn) (e : Error), m.insert c = (.err e, c') ↔
      ∃ log next c1, Spec.Begun m log next ∧ Spec.Executed text c log c1 ∧ Spec.Failed text c1 next e c' := by
  exact ⟨insertText, insertText_reads, fun m hd c c' e => insert_err m hd c c' e⟩

/-- The fields of the row of `m` are exactly those that are set, each once. -/
theorem C52_fields (plain : List (Str × Option (Out SerializeError Value))) (fs : List Spec.Field)
    (h : Spec.PlainSet plain fs) :
    (∀ n v, (n, v) ∈ fs ↔ (n, some (.ok v)) ∈ plain) ∧ (∀ n e, (n, some (.err e)) ∉ plain) ∧
      (fs.map (·.1)).Sublist (plain.map (·.1)) := by
  induction h with
  | nil => simp
  | unset h ih =>
    obtain ⟨h1, h2, h3⟩ := ih
    refine ⟨fun n v => ?_, fun n e he => ?_, h3.trans (by simp)⟩
    · rw [h1, List.mem_cons]
      constructor
      · exact .inr
      · rintro (h | h)
        · cases h
        · exact h
    · rcases List.mem_cons.1 he with he | he
      · cases he
      · exact h2 _ _ he
  | set h ih =>
    obtain ⟨h1, h2, h3⟩ := ih
    refine ⟨fun n v => ?_, fun n e he => ?_, ?_⟩
    · rw [List.mem_cons, List.mem_cons, h1]
      constructor
      · rintro (h | h)
        · cases h; exact .inl rfl
        · exact .inr h
      · rintro (h | h)
        · cases h; exact .inl rfl
        · exact .inr h
    · rcases List.mem_cons.1 he with he | he
      · cases he
      · exact h2 _ _ he
    · exact List.Sublist.cons_cons _ h3

/-- the statement depends on the names only. -/
theorem updateText_eq (t key : Str) (vs : List NamedValue) :
    intoUpdate ((vs.map (·.1)).map fun n => (n, .null)) t key = intoUpdate vs t key := by
  have un : ∀ (vs : List NamedValue) (i : Nat), updateNames i (vs.map fun v => (v.1, .null)) = updateNames i vs := by
    intro vs
    induction vs with
    | nil => intro i; rfl
    | cons v vs ih => intro i; rw [List.map_cons, updateNames, updateNames, ih]
  unfold intoUpdate
  rw [List.map_map]
  show _ ++ updateNames 0 (vs.map fun v => (v.1, .null)) ++ _ ++ _ ++ _ = _
  rw [un]

theorem updateText_reads (table : Str) (names : List Str) (key : Str) (ht : '`' ∉ table) (hk : '`' ∉ key)
    (hne : names ≠ []) (hn : ∀ n ∈ names, '`' ∉ n) :
    ∃ ts, Spec.tokens (intoUpdate (names.map fun n => (n, .null)) table key) = some ts ∧
      Spec.parseUpdate ts = some { table := table, columns := names, key := key } := by
  obtain ⟨ts, h1, h2, -⟩ := update_reads (names.map fun n => (n, .null)) table key (by simpa using hne) ht hk (by
    intro v hv
    obtain ⟨n, h, rfl⟩ := List.mem_map.1 hv
    exact hn n h)
  refine ⟨ts, h1, ?_⟩
  rw [h2, List.map_map]
  congr 2
  exact List.map_id names

/-- Updating: the rows of the references first, then — only if something is set — one statement that
assigns exactly the set fields, with the key last. -/
theorem C52_update : ∃ (text : Str → List Str → Str) (utext : List Str → Str → Str → Str),
    (∀ table names, '`' ∉ table → (∀ n ∈ names, '`' ∉ n) →
      ∃ ts, Spec.tokens (text table names) = some ts ∧
        Spec.parseInsert ts = some { table := table, columns := names, marks := names.length }) ∧
    (∀ table names key, '`' ∉ table → '`' ∉ key → names ≠ [] → (∀ n ∈ names, '`' ∉ n) →
      ∃ ts, Spec.tokens (utext names table key) = some ts ∧
        Spec.parseUpdate ts = some { table := table, columns := names, key := key }) ∧
    ∀ (id : Value) (key : Str) (t : Str) (p : Option Str)
    (plain : List (Str × Option (Out SerializeError Value)))
    (structs : List (Str × Option (List (Str × Out SerializeError Value)))) (refs : ActiveRefs),
    Spec.allDistinct (.mk t p plain structs refs) → ∀ (c c' : Conn),
    (ActiveModel.update id key (.mk t p plain structs refs) c = (.ok (), c') ↔
      ∃ fs gs fks log c1, Spec.PlainSet plain fs ∧ Spec.StructSet structs gs ∧ Spec.Referred refs log fks ∧
        Spec.Executed text c log c1 ∧
        ((fs ++ gs ++ fks = [] ∧ c' = c1) ∨
         (fs ++ gs ++ fks ≠ [] ∧ ∃ st c2 ok,
          prepareStatement (utext ((fs ++ gs ++ fks).map (·.1)) t key) c1 = (.ok st, c2) ∧
          st.execute ((fs ++ gs ++ fks).map (·.2) ++ [id]) c2 = (.ok ok, c')))) := by
  refine ⟨insertText, fun names t k => intoUpdate (names.map fun n => (n, .null)) t k, insertText_reads,
    fun table names key ht hk hne hn => ?_, fun id key t p plain structs refs hd c c' => ?_⟩
  · exact updateText_reads table names key ht hk hne hn
  have ut := updateText_eq t key
  dsimp only
  unfold ActiveModel.update
  constructor
  · intro h
    obtain ⟨values, c1, h1, h⟩ := SM.bind_eq_ok.1 h
    rw [ActiveModel.intoValues] at h1
    obtain ⟨a, d1, k1, k⟩ := SM.bind_eq_ok.1 h1
    obtain ⟨b, d2, k2, k'⟩ := SM.bind_eq_ok.1 k
    obtain ⟨r, d3, k3, k''⟩ := SM.bind_eq_ok.1 k'
    obtain ⟨g1, rfl⟩ := (plainValues_ok _ _ _ _).1 k1
    obtain ⟨g2, rfl⟩ := (structValues_ok _ _ _ _).1 k2
    obtain ⟨log, g3, h4⟩ := (refs_ok refs hd.2 _ _ _).1 k3
    cases k''
    refine ⟨a, b, r, log, _, g1, g2, g3, h4, ?_⟩
    by_cases hv : a ++ b ++ r = []
    · rw [if_neg (by simpa using hv)] at h
      cases h
      exact .inl ⟨hv, rfl⟩
    · rw [if_pos hv] at h
      obtain ⟨st, c2, e1, h⟩ := SM.bind_eq_ok.1 h
      obtain ⟨ok, c3, e2, h⟩ := SM.bind_eq_ok.1 h
      cases h
      exact .inr ⟨hv, st, c2, ok, by rw [ut]; exact e1, e2⟩
  · rintro ⟨fs, gs, fks, log, c1, g1, g2, g3, h4, h⟩
    have hi : (ActiveModel.mk t p plain structs refs).intoValues c = (.ok (fs ++ gs ++ fks), c1) := by
      rw [ActiveModel.intoValues, SM.bind_of_ok ((plainValues_ok _ _ _ _).2 ⟨g1, rfl⟩),
        SM.bind_of_ok ((structValues_ok _ _ _ _).2 ⟨g2, rfl⟩),
        SM.bind_of_ok ((refs_ok refs hd.2 _ _ _).2 ⟨_, g3, h4⟩)]
      rfl
    rw [SM.bind_of_ok hi]
    rcases h with ⟨hv, rfl⟩ | ⟨hv, st, c2, ok, e1, e2⟩
    · rw [if_neg (by simpa using hv)]
      rfl
    · rw [if_pos hv]
      show (prepareStatement (intoUpdate (fs ++ gs ++ fks) t key) >>= _) c1 = _
      rw [ut] at e1
      rw [SM.bind_of_ok e1, SM.bind_of_ok e2]
      rfl

/-- Updating fails with `e` exactly if a set field cannot be converted — then nothing has been sent —, or
inserting one of the references fails — the rows before it have been executed —, or the statement itself
cannot be prepared or executed, after all rows of the references. -/
theorem C52_update_fails : ∃ (text : Str → List Str → Str) (utext : List Str → Str → Str → Str),
    (∀ table names, '`' ∉ table → (∀ n ∈ names, '`' ∉ n) →
      ∃ ts, Spec.tokens (text table names) = some ts ∧
        Spec.parseInsert ts = some { table := table, columns := names, marks := names.length }) ∧
    (∀ table names key, '`' ∉ table → '`' ∉ key → names ≠ [] → (∀ n ∈ names, '`' ∉ n) →
      ∃ ts, Spec.tokens (utext names table key) = some ts ∧
        Spec.parseUpdate ts = some { table := table, columns := names, key := key }) ∧
    ∀ (id : Value) (key : Str) (t : Str) (p : Option Str)
    (plain : List (Str × Option (Out SerializeError Value)))
    (structs : List (Str × Option (List (Str × Out SerializeError Value)))) (refs : ActiveRefs),
    Spec.allDistinct (.mk t p plain structs refs) → ∀ (c c' : Conn) (e : Error),
    (ActiveModel.update id key (.mk t p plain structs refs) c = (.err e, c') ↔
      (∃ s, Spec.PlainBad plain s ∧ e = .protocol (.serialize s) ∧ c' = c) ∨
      (∃ fs s, Spec.PlainSet plain fs ∧ Spec.StructBad structs s ∧ e = .protocol (.serialize s) ∧ c' = c) ∨
      ∃ fs gs, Spec.PlainSet plain fs ∧ Spec.StructSet structs gs ∧
        ((∃ log next c1, Spec.BegunRefs refs log next ∧ Spec.Executed text c log c1 ∧
            Spec.Failed text c1 next e c') ∨
         ∃ fks log c1, Spec.Referred refs log fks ∧ Spec.Executed text c log c1 ∧ fs ++ gs ++ fks ≠ [] ∧
          (prepareStatement (utext ((fs ++ gs ++ fks).map (·.1)) t key) c1 = (.err e, c') ∨
           ∃ st c2, prepareStatement (utext ((fs ++ gs ++ fks).map (·.1)) t key) c1 = (.ok st, c2) ∧
            st.execute ((fs ++ gs ++ fks).map (·.2) ++ [id]) c2 = (.err e, c')))) := by
  refine ⟨insertText, fun names t k => intoUpdate (names.map fun n => (n, .null)) t k, insertText_reads,
    fun table names key ht hk hne hn => updateText_reads table names key ht hk hne hn,
    fun id key t p plain structs refs hd c c' e => ?_⟩
  have ut := updateText_eq t key
  dsimp only
  unfold ActiveModel.update
  constructor
  · intro h
    rcases bind_err h with h | ⟨values, c1, h1, h⟩
    · rw [ActiveModel.intoValues] at h
      rcases bind_err h with k | ⟨a, d1, k1, k⟩
      · obtain ⟨h1, s, h2, h3⟩ := (plainValues_err _ _ _ _).1 k
        exact .inl ⟨s, h2, h3, h1⟩
      obtain ⟨g1, rfl⟩ := (plainValues_ok _ _ _ _).1 k1
      rcases bind_err k with l | ⟨b, d2, k2, l⟩
      · obtain ⟨h1, s, h2, h3⟩ := (structValues_err _ _ _ _).1 l
        exact .inr (.inl ⟨a, s, g1, h2, h3, h1⟩)
      obtain ⟨g2, rfl⟩ := (structValues_ok _ _ _ _).1 k2
      rcases bind_err l with m | ⟨r, d3, k3, m⟩
      · exact .inr (.inr ⟨a, b, g1, g2, .inl ((refs_err refs hd.2 _ _ _).1 m)⟩)
      · cases m
    · rw [ActiveModel.intoValues] at h1
      obtain ⟨a, d1, k1, k⟩ := SM.bind_eq_ok.1 h1
      obtain ⟨b, d2, k2, k'⟩ := SM.bind_eq_ok.1 k
      obtain ⟨r, d3, k3, k''⟩ := SM.bind_eq_ok.1 k'
      obtain ⟨g1, rfl⟩ := (plainValues_ok _ _ _ _).1 k1
      obtain ⟨g2, rfl⟩ := (structValues_ok _ _ _ _).1 k2
      obtain ⟨log, g3, h4⟩ := (refs_ok refs hd.2 _ _ _).1 k3
      cases k''
      by_cases hv : a ++ b ++ r = []
      · rw [if_neg (by simpa using hv)] at h
        cases h
      · rw [if_pos hv] at h
        refine .inr (.inr ⟨a, b, g1, g2, .inr ⟨r, log, _, g3, h4, hv, ?_⟩⟩)
        rcases bind_err h with h | ⟨st, c2, e1, h⟩
        · exact .inl (by rw [ut]; exact h)
        · rcases bind_err h with h | ⟨_, _, _, h⟩
          · exact .inr ⟨st, c2, by rw [ut]; exact e1, h⟩
          · cases h
  · rintro (⟨s, h1, rfl, rfl⟩ | ⟨fs, s, h1, h2, rfl, rfl⟩ | ⟨fs, gs, g1, g2, h⟩)
    · refine SM.bind_of_err ?_
      rw [ActiveModel.intoValues]
      exact SM.bind_of_err ((plainValues_err _ _ _ _).2 ⟨rfl, s, h1, rfl⟩)
    · refine SM.bind_of_err ?_
      rw [ActiveModel.intoValues, SM.bind_of_ok ((plainValues_ok _ _ _ _).2 ⟨h1, rfl⟩)]
      exact SM.bind_of_err ((structValues_err _ _ _ _).2 ⟨rfl, s, h2, rfl⟩)
    · rcases h with h | ⟨fks, log, c1, g3, h4, hv, h⟩
      · refine SM.bind_of_err ?_
        rw [ActiveModel.intoValues, SM.bind_of_ok ((plainValues_ok _ _ _ _).2 ⟨g1, rfl⟩),
          SM.bind_of_ok ((structValues_ok _ _ _ _).2 ⟨g2, rfl⟩)]
        exact SM.bind_of_err ((refs_err refs hd.2 _ _ _).2 h)
      · have hi : (ActiveModel.mk t p plain structs refs).intoValues c = (.ok (fs ++ gs ++ fks), c1) := by
          rw [ActiveModel.intoValues, SM.bind_of_ok ((plainValues_ok _ _ _ _).2 ⟨g1, rfl⟩),
            SM.bind_of_ok ((structValues_ok _ _ _ _).2 ⟨g2, rfl⟩),
            SM.bind_of_ok ((refs_ok refs hd.2 _ _ _).2 ⟨_, g3, h4⟩)]
          rfl
        rw [SM.bind_of_ok hi, if_pos hv]
        show (prepareStatement (intoUpdate (fs ++ gs ++ fks) t key) >>= _) c1 = _
        rcases h with h | ⟨st, c2, e1, e2⟩
        · rw [ut] at h
          exact SM.bind_of_err h
        · rw [ut] at e1
          rw [SM.bind_of_ok e1]
          exact SM.bind_of_err e2

/-- no reference is set. -/
def Spec.allUnset : ActiveRefs → Prop
  | .nil => True
  | .unset _ r => Spec.allUnset r
  | _ => False

/-- With nothing set, updating sends nothing and leaves the connection as it is. -/
theorem C52_update_nothing (id : Value) (key t : Str) (p : Option Str) (names structs : List Str)
    (refs : ActiveRefs) (hr : Spec.allUnset refs) (c : Conn) :
    ActiveModel.update id key (.mk t p (names.map fun n => (n, none)) (structs.map fun n => (n, none)) refs) c =
      (.ok (), c) := by
  have h1 : plainValues (names.map fun n => (n, none)) c = (.ok [], c) := by
    induction names with
    | nil => rfl
    | cons n l ih => exact ih
  have h2 : structValues (structs.map fun n => (n, none)) c = (.ok [], c) := by
    induction structs with
    | nil => rfl
    | cons n l ih => exact ih
  have h3 : ∀ r : ActiveRefs, Spec.allUnset r → refValues r c = (.ok [], c) := by
    intro r
    induction r using ActiveRefs.rec (motive_1 := fun _ => True) with
    | mk => trivial
    | nil => intro _; rw [refValues]; rfl
    | set => intro h; cases h
    | insert => intro h; cases h
    | unset f r ih => intro h; rw [refValues]; exact ih h
  unfold ActiveModel.update
  have h4 : (ActiveModel.mk t p (names.map fun n => (n, none)) (structs.map fun n => (n, none)) refs).intoValues c =
      (.ok [], c) := by
    rw [ActiveModel.intoValues, SM.bind_of_ok h1, SM.bind_of_ok h2, SM.bind_of_ok (h3 refs hr)]
    rfl
  rw [SM.bind_of_ok h4]
  rfl

/-! ### a model as an active model -/

/-- Turned into an active model, every field of a model is set but an auto increment key. -/
theorem C52_whole (t p : Str) (ai : Bool) (plain : List (Str × Out SerializeError Value))
    (structs : List (Str × List (Str × Out SerializeError Value))) (refs : RefVals) :
    let a := (ModelVal.mk t p ai plain structs refs).intoActive
    a.table = t ∧ (∀ n x, (n, some x) ∈ a.plain ↔ (n, x) ∈ plain ∧ ¬ (ai = true ∧ n = p)) ∧
      (∀ n x, (n, some x) ∈ a.structs ↔ (n, x) ∈ structs) ∧
      (ai = true → a.primaryValue = none) := by
  dsimp only
  rw [ModelVal.intoActive]
  refine ⟨rfl, fun n x => ?_, fun n x => ?_, fun h => ?_⟩
  · show (n, some x) ∈ plain.map _ ↔ _
    rw [List.mem_map]
    constructor
    · rintro ⟨f, hf, he⟩
      simp only [Prod.mk.injEq] at he
      obtain ⟨rfl, he⟩ := he
      by_cases hc : ai = true ∧ f.1 = p
      · rw [if_pos hc] at he; cases he
      · rw [if_neg hc] at he
        cases he
        exact ⟨hf, hc⟩
    · rintro ⟨hf, hc⟩
      exact ⟨(n, x), hf, by rw [if_neg hc]⟩
  · show (n, some x) ∈ structs.map _ ↔ _
    rw [List.mem_map]
    constructor
    · rintro ⟨f, hf, he⟩
      cases he
      exact hf
    · intro hf
      exact ⟨(n, x), hf, rfl⟩
  · subst h
    unfold ActiveModel.primaryValue
    dsimp only
    match hf : (plain.map fun f => (f.1, if true = true ∧ f.1 = p then none else some f.2)).find? (·.1 = p) with
    | none => rw [hf]
    | some (q, x) =>
      have hq : q = p := by simpa using List.find?_some hf
      obtain ⟨f, _, he⟩ := List.mem_map.1 (List.mem_of_find?_eq_some hf)
      simp only [Prod.mk.injEq] at he
      obtain ⟨rfl, he⟩ := he
      rw [if_pos ⟨trivial, hq⟩] at he
      rw [hf, ← he]

/-! ### a concrete tree -/

namespace C52

/-- `map` is to be inserted, without its key; `owner` is known. -/
def map : ActiveModel := .mk "map".toList (some "id".toList)
  [("id".toList, none), ("name".toList, some (.ok (.bytes [120])))] [] .nil

def entity : ActiveModel := .mk "entity".toList (some "id".toList)
  [("id".toList, none), ("heading".toList, some (.ok (.tiny 3)))]
  [("position".toList, some [("x".toList, .ok (.tiny 1)), ("y".toList, .ok (.tiny 2))])]
  (.insert "map".toList map (.unset "model".toList (.set "owner".toList (.ulong 9) .nil)))

/-- the rows, with the ids 41 and 7 assigned by the server. -/
example : Spec.Inserted entity
    [{ table := "map".toList, fields := [("name".toList, .bytes [120])], id := 41 },
     { table := "entity".toList,
       fields := [("heading".toList, .tiny 3), ("position_x".toList, .tiny 1), ("position_y".toList, .tiny 2),
         ("map".toList, .ulong 41), ("owner".toList, .ulong 9)], id := 7 }] 7 := by
  have h1 : Spec.Inserted map [{ table := "map".toList, fields := [("name".toList, .bytes [120])], id := 41 }] 41 :=
    .mk (log := []) (.unset (.set .nil)) .nil .nil
  have h2 : Spec.KeyOf map 41 (.ulong 41) := .assigned (by intro v h; simp at h)
  have h3 := Spec.Referred.insert (f := "map".toList) h1 h2
    (.unset (f := "model".toList) (.set (f := "owner".toList) (v := .ulong 9) .nil))
  exact Spec.Inserted.mk (id := 7) (.unset (.set .nil))
    (.set [("x".toList, .tiny 1), ("y".toList, .tiny 2)] .nil) h3

/-- a map whose last field is a date in the year -1, and a pet on it. -/
def late : ActiveModel := .mk "map".toList (some "id".toList)
  [("id".toList, none), ("name".toList, some (.ok (.bytes [120]))),
   ("played".toList, some (.err (.invalidValue .date)))] [] .nil

-- the error of the field is what the caller gets, and nothing has been sent, …
example : late.insert (exConn []) = (.err (.protocol (.serialize (.invalidValue .date))), exConn []) := by
  decide +kernel
example : ActiveModel.update (.ulong 5) "id".toList late (exConn [])
    = (.err (.protocol (.serialize (.invalidValue .date))), exConn []) := by decide +kernel
-- … also when the row is a reference of the inserted one
example : Spec.Begun (.mk "pet".toList none [("name".toList, some (.ok (.bytes [82])))] []
    (.insert "map".toList late .nil)) [] (.error (.invalidValue .date)) :=
  .refs (.set .nil) .nil (.inside (.plain (.unset (.set .here))))
-- a statement the server refuses to prepare
example :
    let rx : Bytes := [10, 0, 0, 1, 0xFF, 0x7A, 0x04, 0x23, 0x34, 0x32, 0x53, 0x30, 0x32, 0x54]
    (map.insert (exConn rx)).1
      = .err (.server (.error 1146 (some [0x34, 0x32, 0x53, 0x30, 0x32]) ['T'])) ∧
    (map.insert (exConn rx)).2.tx
      = Spec.commands [0x16 :: utf8 "insert into `map` (`name`) values (?)".toList] := by decide +kernel

end C52

end Verif
