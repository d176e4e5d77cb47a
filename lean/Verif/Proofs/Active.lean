import Verif.Spec.Active
import Verif.Proofs.SqlTokens
import Verif.Proofs.ResultSet

/-! # Lemmas: insert and update statements; executing a tree of inserts -/

namespace Verif

open Spec

/-! ### insert -/

theorem Reads.of_eq {s s' : Str} {ts : List Tok} (h : Reads s ts) (e : s' = s) : Spec.tokens s' = some ts := by
  rw [e]
  exact h.tokens

theorem qt : "`".toList = ['`'] := by decide

def nameToks (vs : List NamedValue) : List Tok := vs.flatMap fun v => [.punct ',', .name v.1]

theorem insertNames_head (i : Nat) (hi : i ≠ 0) (vs : List NamedValue) {s : Str} (hs : s.head? ≠ some '`') :
    (insertNames i vs ++ s).head? ≠ some '`' := by
  cases vs with
  | nil => exact hs
  | cons v vs =>
    rw [insertNames, if_pos hi]
    intro h
    cases h

theorem Reads.names (i : Nat) (hi : i ≠ 0) (vs : List NamedValue) (hv : ∀ v ∈ vs, '`' ∉ v.1) {s : Str}
    {ts : List Tok} (hs : s.head? ≠ some '`') (h : Reads s ts) :
    Reads (insertNames i vs ++ s) (nameToks vs ++ ts) := by
  induction vs generalizing i with
  | nil => exact h
  | cons v vs ih =>
    have h1 := ih (i + 1) (by omega) fun w hw => hv w (List.mem_cons_of_mem _ hw)
    have h2 := Reads.name v.1 (hv v (List.mem_cons_self ..)) (insertNames_head (i + 1) (by omega) vs hs) h1
    have h3 := Reads.fixed ", ".toList (ts := [.punct ',']) (by decide) (by decide) h2
    rw [insertNames, if_pos hi, qt]
    simp only [List.append_assoc, List.cons_append, List.nil_append] at h3 ⊢
    exact h3

theorem parseNames_eq (v : NamedValue) (vs : List NamedValue) (r : List Tok) :
    parseNames (.name v.1 :: (nameToks vs ++ .punct ')' :: r)) = some ((v :: vs).map (·.1), r) := by
  induction vs generalizing v with
  | nil => rfl
  | cons w vs ih =>
    show parseNames (.name v.1 :: .punct ',' :: .name w.1 :: (nameToks vs ++ .punct ')' :: r)) = _
    rw [parseNames, ih w]
    rfl

def markToks : Nat → List Tok
  | 0 => []
  | n + 1 => .punct ',' :: .punct '?' :: markToks n

theorem Reads.marks (i : Nat) (hi : i ≠ 0) (n : Nat) {s : Str} {ts : List Tok} (h : Reads s ts) :
    Reads (insertMarks i n ++ s) (markToks n ++ ts) := by
  induction n generalizing i with
  | zero => exact h
  | succ n ih =>
    have h1 := ih (i + 1) (by omega)
    have h2 := Reads.fixed ", ?".toList (ts := [.punct ',', .punct '?']) (by decide) (by decide) h1
    rw [insertMarks, if_pos hi]
    exact h2

theorem parseMarks_eq (n : Nat) (r : List Tok) :
    parseMarks (.punct '?' :: (markToks n ++ .punct ')' :: r)) = some (n + 1, r) := by
  induction n with
  | zero => rfl
  | succ n ih =>
    show parseMarks (.punct '?' :: .punct ',' :: .punct '?' :: (markToks n ++ .punct ')' :: r)) = _
    rw [parseMarks, ih]
    rfl

theorem count_nameToks (vs : List NamedValue) : (nameToks vs).count (.punct '?') = 0 := by
  induction vs with
  | nil => rfl
  | cons v vs ih =>
    show (Tok.punct ',' :: Tok.name v.1 :: nameToks vs).count (.punct '?') = 0
    rw [List.count_cons_of_ne (by decide), List.count_cons_of_ne (by intro h; cases h), ih]

theorem count_markToks (n : Nat) : (markToks n).count (.punct '?') = n := by
  induction n with
  | zero => rfl
  | succ n ih => rw [markToks, List.count_cons_of_ne (by decide), List.count_cons_self, ih]

theorem insert_reads (values : List NamedValue) (table : Str) (ht : '`' ∉ table)
    (hv : ∀ v ∈ values, '`' ∉ v.1) :
    ∃ ts, tokens (intoInsert values table) = some ts ∧
      parseInsert ts = some { table := table, columns := values.map (·.1), marks := values.length } ∧
      placeholders ts = values.length := by
  cases values with
  | nil =>
    have h2 := Reads.fixed " () values ()".toList
      (ts := [.punct '(', .punct ')', .word "values".toList, .punct '(', .punct ')'])
      (by decide +kernel) (by decide) Reads.nil
    have h3 := Reads.name table ht (by intro h; cases h) h2
    have h4 := Reads.fixed "insert into ".toList (ts := [.word "insert".toList, .word "into".toList])
      (by decide +kernel) (by decide) h3
    refine ⟨_, Reads.of_eq (s' := intoInsert [] table) h4 ?_, ?_, ?_⟩
    · have e1 : "insert into `".toList = "insert into ".toList ++ ['`'] := by decide
      have e2 : "` (".toList = '`' :: " (".toList := by decide
      have e3 : " () values ()".toList = " (".toList ++ ") values (".toList ++ ")".toList := by decide
      unfold intoInsert
      rw [insertNames, List.length_nil, insertMarks, e1, e2, e3]
      simp only [List.append_assoc, List.cons_append, List.nil_append, List.append_nil]
    · rfl
    · unfold placeholders
      simp
  | cons v vs =>
    have h0 : Reads [')'] [.punct ')'] := .punct ')' (by decide) .nil
    have h1 := Reads.marks 1 (by decide) vs.length h0
    have h1 := Reads.fixed ") values (?".toList (ts := [.punct ')', .word "values".toList, .punct '(', .punct '?'])
      (by decide +kernel) (by decide) h1
    have h2 := Reads.names 1 (by decide) vs (fun w hw => hv w (List.mem_cons_of_mem _ hw)) (by intro h; cases h) h1
    have h3 := Reads.name v.1 (hv v (List.mem_cons_self ..)) (insertNames_head 1 (by decide) vs (by intro h; cases h)) h2
    have h4 := Reads.fixed " (".toList (ts := [.punct '(']) (by decide) (by decide) h3
    have h5 := Reads.name table ht (by intro h; cases h) h4
    have h6 := Reads.fixed "insert into ".toList (ts := [.word "insert".toList, .word "into".toList])
      (by decide +kernel) (by decide) h5
    refine ⟨_, Reads.of_eq (s' := intoInsert (v :: vs) table) h6 ?_, ?_, ?_⟩
    · unfold intoInsert
      rw [insertNames, List.length_cons, insertMarks]
      have e1 : "insert into `".toList = "insert into ".toList ++ ['`'] := by decide
      have e2 : "` (".toList = '`' :: " (".toList := by decide
      have e3 : ") values (?".toList = ") values (".toList ++ "?".toList := by decide
      have e4 : ")".toList = [')'] := by decide
      rw [qt, e1, e2, e4]
      rw [e3]
      simp only [List.append_assoc, List.cons_append, List.nil_append, ne_eq, not_true_eq_false, if_false]
    · simp only [List.cons_append, List.nil_append]
      rw [parseInsert, if_pos ⟨rfl, rfl⟩]
      simp only [parseNames_eq]
      rw [if_pos True.intro]
      simp only [parseMarks_eq]
      · rfl
      · intro r' h
        cases h
    · unfold placeholders
      simp only [List.cons_append, List.nil_append, List.count_cons, List.count_append, count_nameToks,
        count_markToks, List.length_cons]
      simp

/-! ### update -/

def setToks (vs : List NamedValue) : List Tok :=
  vs.flatMap fun v => [.punct ',', .name v.1, .punct '=', .punct '?']

theorem Reads.sets (i : Nat) (hi : i ≠ 0) (vs : List NamedValue) (hv : ∀ v ∈ vs, '`' ∉ v.1) {s : Str}
    {ts : List Tok} (h : Reads s ts) :
    Reads (updateNames i vs ++ s) (setToks vs ++ ts) := by
  induction vs generalizing i with
  | nil => exact h
  | cons v vs ih =>
    have h1 := ih (i + 1) (by omega) fun w hw => hv w (List.mem_cons_of_mem _ hw)
    have h1 := Reads.fixed " = ?".toList (ts := [.punct '=', .punct '?']) (by decide) (by decide) h1
    have h2 := Reads.name v.1 (hv v (List.mem_cons_self ..)) (by intro h; cases h) h1
    have h3 := Reads.fixed ", ".toList (ts := [.punct ',']) (by decide) (by decide) h2
    have e : "` = ?".toList = '`' :: " = ?".toList := by decide
    rw [updateNames, if_pos hi, qt, e]
    simp only [List.append_assoc, List.cons_append, List.nil_append] at h3 ⊢
    exact h3

theorem parseSets_eq (v : NamedValue) (vs : List NamedValue) (r : List Tok) :
    parseSets (.name v.1 :: .punct '=' :: .punct '?' :: (setToks vs ++ .word "where".toList :: r)) =
      some ((v :: vs).map (·.1), r) := by
  induction vs generalizing v with
  | nil => rfl
  | cons w vs ih =>
    show parseSets (.name v.1 :: .punct '=' :: .punct '?' :: .punct ',' :: .name w.1 :: .punct '=' ::
      .punct '?' :: (setToks vs ++ .word "where".toList :: r)) = _
    rw [parseSets, ih w]
    rfl

theorem count_setToks (vs : List NamedValue) : (setToks vs).count (.punct '?') = vs.length := by
  induction vs with
  | nil => rfl
  | cons v vs ih =>
    show (Tok.punct ',' :: Tok.name v.1 :: Tok.punct '=' :: Tok.punct '?' :: setToks vs).count (.punct '?') = _
    rw [List.count_cons_of_ne (by decide), List.count_cons_of_ne (by intro h; cases h),
      List.count_cons_of_ne (by decide), List.count_cons_self, ih]
    rfl

theorem update_reads (values : List NamedValue) (table key : Str) (hne : values ≠ []) (ht : '`' ∉ table)
    (hk : '`' ∉ key) (hv : ∀ v ∈ values, '`' ∉ v.1) :
    ∃ ts, tokens (intoUpdate values table key) = some ts ∧
      parseUpdate ts = some { table := table, columns := values.map (·.1), key := key } ∧
      placeholders ts = values.length + 1 := by
  match values, hne with
  | v :: vs, _ =>
    have h1 := Reads.fixed " = ?".toList (ts := [.punct '=', .punct '?']) (by decide) (by decide) Reads.nil
    have h1 := Reads.name key hk (by intro h; cases h) h1
    have h1 := Reads.fixed " where ".toList (ts := [.word "where".toList]) (by decide +kernel) (by decide) h1
    have h1 := Reads.sets 1 (by decide) vs (fun w hw => hv w (List.mem_cons_of_mem _ hw)) h1
    have h1 := Reads.fixed " = ?".toList (ts := [.punct '=', .punct '?']) (by decide) (by decide) h1
    have h1 := Reads.name v.1 (hv v (List.mem_cons_self ..)) (by intro h; cases h) h1
    have h1 := Reads.fixed " set ".toList (ts := [.word "set".toList]) (by decide +kernel) (by decide) h1
    have h1 := Reads.name table ht (by intro h; cases h) h1
    have h1 := Reads.fixed "update ".toList (ts := [.word "update".toList]) (by decide +kernel) (by decide) h1
    refine ⟨_, Reads.of_eq (s' := intoUpdate (v :: vs) table key) h1 ?_, ?_, ?_⟩
    · unfold intoUpdate
      rw [updateNames]
      have e1 : "update `".toList = "update ".toList ++ ['`'] := by decide
      have e2 : "` set ".toList = '`' :: " set ".toList := by decide
      have e3 : " where `".toList = " where ".toList ++ ['`'] := by decide
      have e4 : "` = ?".toList = '`' :: " = ?".toList := by decide
      rw [qt, e1, e2, e3, e4]
      simp only [List.append_assoc, List.cons_append, List.nil_append, List.append_nil, ne_eq,
        not_true_eq_false, if_false]
    · simp only [List.cons_append, List.nil_append]
      rw [parseUpdate, if_pos ⟨rfl, rfl⟩, parseSets_eq]
      rfl
    · unfold placeholders
      simp only [List.cons_append, List.nil_append, List.count_cons, List.count_append, count_setToks,
        List.length_cons]
      simp

/-! ### executing -/

theorem mapErr_eq_ok {ε ε' α : Type} {f : ε → ε'} {o : Out ε α} {a : α} :
    o.mapErr f = .ok a ↔ o = .ok a := by
  cases o <;> simp [Out.mapErr]

theorem liftS_ok {α : Type} {o : Out SerializeError α} {a : α} {c c' : Conn} :
    liftS o c = (.ok a, c') ↔ o = .ok a ∧ c' = c := by
  unfold liftS
  cases o with
  | ok b =>
    constructor
    · intro h
      cases h
      exact ⟨rfl, rfl⟩
    · rintro ⟨h, rfl⟩
      cases h
      rfl
  | err e => exact ⟨(by intro h; cases h), (by rintro ⟨h, -⟩; cases h)⟩
  | panic => exact ⟨(by intro h; cases h), (by rintro ⟨h, -⟩; cases h)⟩

theorem plainValues_ok (l : List (Str × Option (Out SerializeError Value))) (c c' : Conn) (vs : List NamedValue) :
    plainValues l c = (.ok vs, c') ↔ PlainSet l vs ∧ c' = c := by
  induction l generalizing vs c c' with
  | nil =>
    constructor
    · intro h
      cases h
      exact ⟨.nil, rfl⟩
    · rintro ⟨h, rfl⟩
      cases h
      rfl
  | cons f l ih =>
    match f with
    | (n, none) =>
      rw [plainValues, ih]
      constructor
      · rintro ⟨h, rfl⟩
        exact ⟨.unset h, rfl⟩
      · rintro ⟨h, rfl⟩
        cases h
        exact ⟨by assumption, rfl⟩
    | (n, some x) =>
      rw [plainValues, SM.bind_eq_ok]
      constructor
      · rintro ⟨v, c1, h1, h2⟩
        obtain ⟨vs', c2, h4, h3⟩ := SM.bind_eq_ok.1 h2
        obtain ⟨rfl, rfl⟩ := liftS_ok.1 h1
        obtain ⟨h5, rfl⟩ := (ih _ _ _).1 h4
        cases h3
        exact ⟨.set h5, rfl⟩
      · rintro ⟨h, rfl⟩
        cases h with
        | set h =>
          refine ⟨_, _, liftS_ok.2 ⟨rfl, rfl⟩, ?_⟩
          rw [SM.bind_of_ok ((ih _ _ _).2 ⟨h, rfl⟩)]
          rfl

theorem memberValues_ok (f : Str) (l : List (Str × Out SerializeError Value)) (c c' : Conn) (vs : List NamedValue) :
    memberValues f l c = (.ok vs, c') ↔ c' = c ∧ ∃ ms : List (Str × Value),
      l = ms.map (fun x => (x.1, .ok x.2)) ∧ vs = ms.map fun x => (f ++ '_' :: x.1, x.2) := by
  induction l generalizing vs c c' with
  | nil =>
    constructor
    · intro h
      cases h
      exact ⟨rfl, [], rfl, rfl⟩
    · rintro ⟨rfl, ms, h1, rfl⟩
      cases ms with
      | nil => rfl
      | cons => cases h1
  | cons x l ih =>
    obtain ⟨n, x⟩ := x
    rw [memberValues, SM.bind_eq_ok]
    constructor
    · rintro ⟨v, c1, h1, h2⟩
      obtain ⟨vs', c2, h2, h3⟩ := SM.bind_eq_ok.1 h2
      obtain ⟨rfl, rfl⟩ := liftS_ok.1 h1
      obtain ⟨rfl, ms, rfl, rfl⟩ := (ih _ _ _).1 h2
      cases h3
      exact ⟨rfl, (n, v) :: ms, rfl, rfl⟩
    · rintro ⟨rfl, ms, h1, rfl⟩
      cases ms with
      | nil => cases h1
      | cons y ms =>
        simp only [List.map_cons, List.cons.injEq, Prod.mk.injEq] at h1
        obtain ⟨⟨rfl, rfl⟩, rfl⟩ := h1
        refine ⟨_, _, liftS_ok.2 ⟨rfl, rfl⟩, ?_⟩
        rw [SM.bind_of_ok ((ih _ _ _).2 ⟨rfl, ms, rfl, rfl⟩)]
        rfl

theorem structValues_ok (l : List (Str × Option (List (Str × Out SerializeError Value)))) (c c' : Conn)
    (vs : List NamedValue) : structValues l c = (.ok vs, c') ↔ StructSet l vs ∧ c' = c := by
  induction l generalizing vs c c' with
  | nil =>
    constructor
    · intro h
      cases h
      exact ⟨.nil, rfl⟩
    · rintro ⟨h, rfl⟩
      cases h
      rfl
  | cons f l ih =>
    match f with
    | (n, none) =>
      rw [structValues, ih]
      constructor
      · rintro ⟨h, rfl⟩
        exact ⟨.unset h, rfl⟩
      · rintro ⟨h, rfl⟩
        cases h
        exact ⟨by assumption, rfl⟩
    | (n, some x) =>
      rw [structValues, SM.bind_eq_ok]
      constructor
      · rintro ⟨v, c1, h1, h2⟩
        obtain ⟨vs', c2, h4, h3⟩ := SM.bind_eq_ok.1 h2
        obtain ⟨rfl, ms, rfl, rfl⟩ := (memberValues_ok _ _ _ _ _).1 h1
        obtain ⟨h5, rfl⟩ := (ih _ _ _).1 h4
        cases h3
        exact ⟨.set ms h5, rfl⟩
      · rintro ⟨h, rfl⟩
        cases h with
        | set ms h =>
          refine ⟨_, _, (memberValues_ok _ _ _ _ _).2 ⟨rfl, ms, rfl, rfl⟩, ?_⟩
          rw [SM.bind_of_ok ((ih _ _ _).2 ⟨h, rfl⟩)]
          rfl

/-- the statement for a row: the names alone determine it. -/
def insertText (table : Str) (names : List Str) : Str := intoInsert (names.map fun n => (n, .null)) table

theorem insertNames_names (i : Nat) (vs : List NamedValue) :
    insertNames i (vs.map fun v => (v.1, .null)) = insertNames i vs := by
  induction vs generalizing i with
  | nil => rfl
  | cons v vs ih => rw [List.map_cons, insertNames, insertNames, ih]

theorem insertText_eq (table : Str) (vs : List NamedValue) :
    insertText table (vs.map (·.1)) = intoInsert vs table := by
  unfold insertText intoInsert
  rw [List.map_map]
  show _ ++ insertNames 0 (vs.map fun v => (v.1, .null)) ++ _ ++ _ ++ _ = _
  rw [insertNames_names, List.length_map]

theorem executeInsert_ok (t : Str) (vs : List NamedValue) (c c' : Conn) (id : UInt64) :
    executeInsert t vs c = (.ok id, c') ↔
      Executed insertText c [{ table := t, fields := vs, id := id }] c' := by
  unfold executeInsert
  rw [SM.bind_eq_ok]
  constructor
  · rintro ⟨p, c1, h1, h2⟩
    obtain ⟨ok, c2, h2, h3⟩ := SM.bind_eq_ok.1 h2
    cases h3
    exact .cons (by rw [insertText_eq]; exact h1) h2 rfl .nil
  · intro h
    cases h with
    | cons h1 h2 h3 h4 =>
      cases h4
      rw [insertText_eq] at h1
      refine ⟨_, _, h1, ?_⟩
      rw [SM.bind_of_ok h2, h3]
      rfl

theorem executed_append {text : Str → List Str → Str} {c c1 c2 : Conn} {a b : List Row}
    (h1 : Executed text c a c1) (h2 : Executed text c1 b c2) : Executed text c (a ++ b) c2 := by
  induction h1 with
  | nil => exact h2
  | cons e1 e2 e3 _ ih => exact .cons e1 e2 e3 (ih h2)

theorem executed_split {text : Str → List Str → Str} {c c2 : Conn} {a b : List Row}
    (h : Executed text c (a ++ b) c2) : ∃ c1, Executed text c a c1 ∧ Executed text c1 b c2 := by
  induction a generalizing c with
  | nil => exact ⟨c, .nil, h⟩
  | cons x a ih =>
    cases h with
    | cons e1 e2 e3 h =>
      obtain ⟨c1, h1, h2⟩ := ih h
      exact ⟨c1, .cons e1 e2 e3 h1, h2⟩

theorem find_mem {l : List (Str × Option (Out SerializeError Value))} (hd : (l.map (·.1)).Nodup) (p : Str)
    (x : Option (Out SerializeError Value)) : l.find? (·.1 = p) = some (p, x) ↔ (p, x) ∈ l := by
  induction l with
  | nil => simp
  | cons f l ih =>
    rw [List.map_cons, List.nodup_cons] at hd
    obtain ⟨n, y⟩ := f
    by_cases hn : n = p
    · subst hn
      rw [List.find?_cons_of_pos (by simp)]
      constructor
      · intro h
        cases h
        exact List.mem_cons_self ..
      · intro h
        rcases List.mem_cons.1 h with h | h
        · rw [h]
        · exact absurd (List.mem_map.2 ⟨_, h, rfl⟩) hd.1
    · rw [List.find?_cons_of_neg (by simpa using hn), ih hd.2]
      constructor
      · exact List.mem_cons_of_mem _
      · intro h
        rcases List.mem_cons.1 h with h | h
        · cases h; exact absurd rfl hn
        · exact h

theorem key_eq (m : ActiveModel) (hd : ActiveModel.Distinct m) (id : UInt64) (k : Value) :
    KeyOf m id k ↔ k = m.primaryValue.getD (.ulong id) := by
  match m with
  | .mk t none plain structs refs =>
    constructor
    · intro h; cases h; rfl
    · intro h; rw [h]; exact .without
  | .mk t (some p) plain structs refs =>
    have hd' : (plain.map (·.1)).Nodup := hd
    have e : (ActiveModel.mk t (some p) plain structs refs).primaryValue =
        (match plain.find? (·.1 = p) with | some (_, some (.ok v)) => some v | _ => none) := rfl
    have hcase : (∃ v, (p, some (.ok v)) ∈ plain ∧
          (ActiveModel.mk t (some p) plain structs refs).primaryValue = some v) ∨
        ((∀ v, (p, some (.ok v)) ∉ plain) ∧
          (ActiveModel.mk t (some p) plain structs refs).primaryValue = none) := by
      rw [e]
      match hf : plain.find? (·.1 = p) with
      | none =>
        refine .inr ⟨fun v hv => ?_, by rw [hf]⟩
        rw [(find_mem hd' p _).2 hv] at hf
        cases hf
      | some (q, x) =>
        have hq : q = p := by simpa using List.find?_some hf
        subst hq
        match x with
        | some (.ok v) => exact .inl ⟨v, (find_mem hd' q _).1 hf, by rw [hf]⟩
        | none =>
          refine .inr ⟨fun v hv => ?_, by rw [hf]⟩
          rw [(find_mem hd' q _).2 hv] at hf
          cases hf
        | some (.err e) =>
          refine .inr ⟨fun v hv => ?_, by rw [hf]⟩
          rw [(find_mem hd' q _).2 hv] at hf
          cases hf
        | some .panic =>
          refine .inr ⟨fun v hv => ?_, by rw [hf]⟩
          rw [(find_mem hd' q _).2 hv] at hf
          cases hf
    rcases hcase with ⟨v, hv, e⟩ | ⟨hv, e⟩ <;> rw [e] <;> constructor <;> intro h
    · cases h with
      | own h =>
        have h1 := (find_mem hd' p _).2 h
        rw [(find_mem hd' p _).2 hv] at h1
        cases h1
        rfl
      | assigned h => exact absurd hv (h v)
    · rw [h]
      exact .own hv
    · cases h with
      | own h => exact absurd h (hv k)
      | assigned h => rfl
    · rw [h]
      exact .assigned hv

mutual
theorem insert_ok (m : ActiveModel) (hd : allDistinct m) (c c' : Conn) (id : UInt64) :
    m.insert c = (.ok id, c') ↔ ∃ log, Inserted m log id ∧ Executed insertText c log c' := by
  match m with
  | .mk t p plain structs refs =>
    rw [ActiveModel.insert, SM.bind_eq_ok]
    constructor
    · rintro ⟨a, c1, h1, h⟩
      obtain ⟨b, c2, h2, k⟩ := SM.bind_eq_ok.1 h
      obtain ⟨r, c3, h3, k2⟩ := SM.bind_eq_ok.1 k
      obtain ⟨g1, rfl⟩ := (plainValues_ok _ _ _ _).1 h1
      obtain ⟨g2, rfl⟩ := (structValues_ok _ _ _ _).1 h2
      obtain ⟨log, g3, h4⟩ := (refs_ok refs hd.2 _ _ _).1 h3
      exact ⟨_, .mk g1 g2 g3, executed_append h4 ((executeInsert_ok _ _ _ _ _).1 k2)⟩
    · rintro ⟨log, h, he⟩
      cases h with
      | mk h1 h2 h3 =>
        obtain ⟨c1, e1, e2⟩ := executed_split he
        refine ⟨_, _, (plainValues_ok _ _ _ _).2 ⟨h1, rfl⟩, ?_⟩
        rw [SM.bind_of_ok ((structValues_ok _ _ _ _).2 ⟨h2, rfl⟩),
          SM.bind_of_ok ((refs_ok refs hd.2 _ _ _).2 ⟨_, h3, e1⟩)]
        exact (executeInsert_ok _ _ _ _ _).2 e2

theorem refs_ok (r : ActiveRefs) (hd : allDistinctRefs r) (c c' : Conn) (fks : List NamedValue) :
    refValues r c = (.ok fks, c') ↔ ∃ log, Referred r log fks ∧ Executed insertText c log c' := by
  match r with
  | .nil =>
    rw [refValues]
    constructor
    · intro h
      cases h
      exact ⟨[], .nil, .nil⟩
    · rintro ⟨log, h, he⟩
      cases h
      cases he
      rfl
  | .unset f r =>
    rw [refValues, refs_ok r hd]
    constructor
    · rintro ⟨log, h, he⟩
      exact ⟨log, .unset h, he⟩
    · rintro ⟨log, h, he⟩
      cases h with
      | unset h => exact ⟨log, h, he⟩
  | .set f v r =>
    rw [refValues, SM.bind_eq_ok]
    constructor
    · rintro ⟨vs, c1, h1, h2⟩
      cases h2
      obtain ⟨log, h, he⟩ := (refs_ok r hd _ _ _).1 h1
      exact ⟨log, .set h, he⟩
    · rintro ⟨log, h, he⟩
      cases h with
      | set h => exact ⟨_, _, (refs_ok r hd _ _ _).2 ⟨log, h, he⟩, rfl⟩
  | .insert f m r =>
    have hm : ActiveModel.Distinct m := by
      match m, hd with
      | .mk .., hd => exact hd.1.1
    rw [refValues, SM.bind_eq_ok]
    constructor
    · rintro ⟨id, c1, h1, h2⟩
      obtain ⟨vs, c2, h2, h3⟩ := SM.bind_eq_ok.1 h2
      cases h3
      obtain ⟨log, h, he⟩ := (insert_ok m hd.1 _ _ _).1 h1
      obtain ⟨log', h', he'⟩ := (refs_ok r hd.2 _ _ _).1 h2
      exact ⟨log ++ log', .insert h ((key_eq m hm id _).2 rfl) h', executed_append he he'⟩
    · rintro ⟨log, h, he⟩
      cases h with
      | insert h hk h' =>
        obtain ⟨c1, e1, e2⟩ := executed_split he
        refine ⟨_, _, (insert_ok m hd.1 _ _ _).2 ⟨_, h, e1⟩, ?_⟩
        rw [SM.bind_of_ok ((refs_ok r hd.2 _ _ _).2 ⟨_, h', e2⟩), (key_eq m hm _ _).1 hk]
        rfl
end

/-! ### failing -/

theorem liftS_err {α : Type} {o : Out SerializeError α} {e : Error} {c c' : Conn} :
    liftS o c = (.err e, c') ↔ c' = c ∧ ∃ s, o = .err s ∧ e = .protocol (.serialize s) := by
  unfold liftS
  constructor
  · intro h
    cases o with
    | ok b => cases h
    | err e => cases h; exact ⟨rfl, _, rfl, rfl⟩
    | panic => cases h
  · rintro ⟨rfl, s, rfl, rfl⟩
    rfl

theorem bind_err {σ ε α β : Type} {m : SM σ ε α} {f : α → SM σ ε β} {s s' : σ} {e : ε}
    (h : (m >>= f) s = (.err e, s')) :
    m s = (.err e, s') ∨ ∃ a s1, m s = (.ok a, s1) ∧ f a s1 = (.err e, s') := by
  rw [SM.bind_apply] at h
  match hm : m s with
  | (.ok a, s1) => rw [hm] at h; exact .inr ⟨a, s1, rfl, h⟩
  | (.err e', s1) => rw [hm] at h; dsimp only at h; cases h; exact .inl rfl
  | (.panic, s1) => rw [hm] at h; cases h

theorem plainValues_err (l : List (Str × Option (Out SerializeError Value))) (c c' : Conn) (e : Error) :
    plainValues l c = (.err e, c') ↔ c' = c ∧ ∃ s, PlainBad l s ∧ e = .protocol (.serialize s) := by
  constructor
  · intro h
    induction l generalizing c c' with
    | nil => cases h
    | cons f l ih =>
      match f with
      | (n, none) =>
        rw [plainValues] at h
        obtain ⟨h1, s, h2, h3⟩ := ih _ _ h
        exact ⟨h1, s, .unset h2, h3⟩
      | (n, some x) =>
        rw [plainValues] at h
        rcases bind_err h with k | ⟨v, c1, h1, k⟩
        · obtain ⟨h1, s, rfl, h3⟩ := liftS_err.1 k
          exact ⟨h1, s, .here, h3⟩
        · obtain ⟨rfl, rfl⟩ := liftS_ok.1 h1
          rcases bind_err k with k | ⟨_, _, _, k⟩
          · obtain ⟨h1, s, h2, h3⟩ := ih _ _ k
            exact ⟨h1, s, .set h2, h3⟩
          · cases k
  · rintro ⟨rfl, s, h, rfl⟩
    induction h with
    | here =>
      rw [plainValues]
      exact SM.bind_of_err (liftS_err.2 ⟨rfl, _, rfl, rfl⟩)
    | unset h ih => rw [plainValues]; exact ih
    | set h ih =>
      rw [plainValues, SM.bind_of_ok (liftS_ok.2 ⟨rfl, rfl⟩)]
      exact SM.bind_of_err ih

theorem memberValues_err (f : Str) (l : List (Str × Out SerializeError Value)) (c c' : Conn) (e : Error) :
    memberValues f l c = (.err e, c') ↔ c' = c ∧ ∃ s, MembersBad l s ∧ e = .protocol (.serialize s) := by
  constructor
  · intro h
    induction l generalizing c c' with
    | nil => cases h
    | cons x l ih =>
      obtain ⟨n, x⟩ := x
      rw [memberValues] at h
      rcases bind_err h with k | ⟨v, c1, h1, k⟩
      · obtain ⟨h1, s, rfl, h3⟩ := liftS_err.1 k
        exact ⟨h1, s, .here, h3⟩
      · obtain ⟨rfl, rfl⟩ := liftS_ok.1 h1
        rcases bind_err k with k | ⟨_, _, _, k⟩
        · obtain ⟨h1, s, h2, h3⟩ := ih _ _ k
          exact ⟨h1, s, .later h2, h3⟩
        · cases k
  · rintro ⟨rfl, s, h, rfl⟩
    induction h with
    | here =>
      rw [memberValues]
      exact SM.bind_of_err (liftS_err.2 ⟨rfl, _, rfl, rfl⟩)
    | later h ih =>
      rw [memberValues, SM.bind_of_ok (liftS_ok.2 ⟨rfl, rfl⟩)]
      exact SM.bind_of_err ih

theorem structValues_err (l : List (Str × Option (List (Str × Out SerializeError Value)))) (c c' : Conn)
    (e : Error) :
    structValues l c = (.err e, c') ↔ c' = c ∧ ∃ s, StructBad l s ∧ e = .protocol (.serialize s) := by
  constructor
  · intro h
    induction l generalizing c c' with
    | nil => cases h
    | cons f l ih =>
      match f with
      | (n, none) =>
        rw [structValues] at h
        obtain ⟨h1, s, h2, h3⟩ := ih _ _ h
        exact ⟨h1, s, .unset h2, h3⟩
      | (n, some x) =>
        rw [structValues] at h
        rcases bind_err h with k | ⟨v, c1, h1, k⟩
        · obtain ⟨h1, s, h2, h3⟩ := (memberValues_err _ _ _ _ _).1 k
          exact ⟨h1, s, .here h2, h3⟩
        · obtain ⟨rfl, ms, rfl, rfl⟩ := (memberValues_ok _ _ _ _ _).1 h1
          rcases bind_err k with k | ⟨_, _, _, k⟩
          · obtain ⟨h1, s, h2, h3⟩ := ih _ _ k
            exact ⟨h1, s, .later ms h2, h3⟩
          · cases k
  · rintro ⟨rfl, s, h, rfl⟩
    induction h with
    | here h =>
      rw [structValues]
      exact SM.bind_of_err ((memberValues_err _ _ _ _ _).2 ⟨rfl, _, h, rfl⟩)
    | unset h ih => rw [structValues]; exact ih
    | later ms h ih =>
      rw [structValues, SM.bind_of_ok ((memberValues_ok _ _ _ _ _).2 ⟨rfl, ms, rfl, rfl⟩)]
      exact SM.bind_of_err ih

theorem executeInsert_err (t : Str) (vs : List NamedValue) (c c' : Conn) (e : Error) :
    executeInsert t vs c = (.err e, c') ↔ Failed insertText c (.ok (t, vs)) e c' := by
  unfold executeInsert
  constructor
  · intro h
    rcases bind_err h with h | ⟨p, c1, h1, h⟩
    · exact .prepare (by rw [insertText_eq]; exact h)
    · rcases bind_err h with h | ⟨_, _, _, h⟩
      · exact .execute (by rw [insertText_eq]; exact h1) h
      · cases h
  · intro h
    cases h with
    | prepare h =>
      rw [insertText_eq] at h
      exact SM.bind_of_err h
    | execute h1 h2 =>
      rw [insertText_eq] at h1
      rw [SM.bind_of_ok h1]
      exact SM.bind_of_err h2

mutual
theorem insert_err_of (m : ActiveModel) (hd : allDistinct m) (c c' : Conn) (e : Error)
    (h : m.insert c = (.err e, c')) : ∃ log next c1, Begun m log next ∧ Executed insertText c log c1 ∧
      Failed insertText c1 next e c' := by
  match m with
  | .mk t p plain structs refs =>
    rw [ActiveModel.insert] at h
    rcases bind_err h with k | ⟨a, c1, h1, k⟩
    · obtain ⟨rfl, s, h2, rfl⟩ := (plainValues_err _ _ _ _).1 k
      exact ⟨[], _, _, .plain h2, .nil, .convert⟩
    obtain ⟨g1, rfl⟩ := (plainValues_ok _ _ _ _).1 h1
    rcases bind_err k with k2 | ⟨b, c2, h2, k2⟩
    · obtain ⟨rfl, s, h2, rfl⟩ := (structValues_err _ _ _ _).1 k2
      exact ⟨[], _, _, .structs g1 h2, .nil, .convert⟩
    obtain ⟨g2, rfl⟩ := (structValues_ok _ _ _ _).1 h2
    rcases bind_err k2 with k3 | ⟨r, c3, h3, k3⟩
    · obtain ⟨log, next, c1, b1, b2, b3⟩ := refs_err_of refs hd.2 _ _ _ k3
      exact ⟨log, next, c1, .refs g1 g2 b1, b2, b3⟩
    obtain ⟨log, g3, h4⟩ := (refs_ok refs hd.2 _ _ _).1 h3
    exact ⟨log, _, _, .own g1 g2 g3, h4, (executeInsert_err _ _ _ _ _).1 k3⟩

theorem refs_err_of (r : ActiveRefs) (hd : allDistinctRefs r) (c c' : Conn) (e : Error)
    (h : refValues r c = (.err e, c')) : ∃ log next c1, BegunRefs r log next ∧ Executed insertText c log c1 ∧
      Failed insertText c1 next e c' := by
  match r with
  | .nil => rw [refValues] at h; cases h
  | .unset f r =>
    rw [refValues] at h
    obtain ⟨log, next, c1, b1, b2, b3⟩ := refs_err_of r hd _ _ _ h
    exact ⟨log, next, c1, .unset b1, b2, b3⟩
  | .set f v r =>
    rw [refValues] at h
    rcases bind_err h with h | ⟨_, _, _, h⟩
    · obtain ⟨log, next, c1, b1, b2, b3⟩ := refs_err_of r hd _ _ _ h
      exact ⟨log, next, c1, .set b1, b2, b3⟩
    · cases h
  | .insert f m r =>
    rw [refValues] at h
    rcases bind_err h with h | ⟨id, c1, h1, h⟩
    · obtain ⟨log, next, c1, b1, b2, b3⟩ := insert_err_of m hd.1 _ _ _ h
      exact ⟨log, next, c1, .inside b1, b2, b3⟩
    · obtain ⟨log, g1, g2⟩ := (insert_ok m hd.1 _ _ _).1 h1
      rcases bind_err h with h | ⟨_, _, _, h⟩
      · obtain ⟨log', next, c2, b1, b2, b3⟩ := refs_err_of r hd.2 _ _ _ h
        exact ⟨log ++ log', next, c2, .after g1 b1, executed_append g2 b2, b3⟩
      · cases h
end

mutual
theorem insert_failed (m : ActiveModel) (hd : allDistinct m) {log : List Row}
    {next : Except SerializeError (Str × List Field)} {c c1 c' : Conn} {e : Error} (hb : Begun m log next)
    (he : Executed insertText c log c1) (hf : Failed insertText c1 next e c') :
    m.insert c = (.err e, c') := by
  match m with
  | .mk t' p plain structs refs =>
    rw [ActiveModel.insert]
    cases hb with
    | plain h =>
      cases he
      cases hf
      exact SM.bind_of_err ((plainValues_err _ _ _ _).2 ⟨rfl, _, h, rfl⟩)
    | structs h1 h =>
      cases he
      cases hf
      rw [SM.bind_of_ok ((plainValues_ok _ _ _ _).2 ⟨h1, rfl⟩)]
      exact SM.bind_of_err ((structValues_err _ _ _ _).2 ⟨rfl, _, h, rfl⟩)
    | refs h1 h2 h3 =>
      rw [SM.bind_of_ok ((plainValues_ok _ _ _ _).2 ⟨h1, rfl⟩),
        SM.bind_of_ok ((structValues_ok _ _ _ _).2 ⟨h2, rfl⟩)]
      exact SM.bind_of_err (refs_failed refs hd.2 h3 he hf)
    | own h1 h2 h3 =>
      rw [SM.bind_of_ok ((plainValues_ok _ _ _ _).2 ⟨h1, rfl⟩),
        SM.bind_of_ok ((structValues_ok _ _ _ _).2 ⟨h2, rfl⟩),
        SM.bind_of_ok ((refs_ok refs hd.2 _ _ _).2 ⟨_, h3, he⟩)]
      exact (executeInsert_err _ _ _ _ _).2 hf

theorem refs_failed (r : ActiveRefs) (hd : allDistinctRefs r) {log : List Row}
    {next : Except SerializeError (Str × List Field)} {c c1 c' : Conn} {e : Error}
    (hb : BegunRefs r log next) (he : Executed insertText c log c1) (hf : Failed insertText c1 next e c') :
    refValues r c = (.err e, c') := by
  match r with
  | .nil => cases hb
  | .unset f r =>
    cases hb with
    | unset h =>
      rw [refValues]
      exact refs_failed r hd h he hf
  | .set f v r =>
    cases hb with
    | set h =>
      rw [refValues]
      exact SM.bind_of_err (refs_failed r hd h he hf)
  | .insert f m r =>
    rw [refValues]
    cases hb with
    | inside h => exact SM.bind_of_err (insert_failed m hd.1 h he hf)
    | after h1 h2 =>
      obtain ⟨c2, e1, e2⟩ := executed_split he
      rw [SM.bind_of_ok ((insert_ok m hd.1 _ _ _).2 ⟨_, h1, e1⟩)]
      exact SM.bind_of_err (refs_failed r hd.2 h2 e2 hf)
end

theorem insert_err (m : ActiveModel) (hd : allDistinct m) (c c' : Conn) (e : Error) :
    m.insert c = (.err e, c') ↔ ∃ log next c1, Begun m log next ∧ Executed insertText c log c1 ∧
      Failed insertText c1 next e c' :=
  ⟨insert_err_of m hd c c' e, fun ⟨_, _, _, h1, h2, h3⟩ => insert_failed m hd h1 h2 h3⟩

theorem refs_err (r : ActiveRefs) (hd : allDistinctRefs r) (c c' : Conn) (e : Error) :
    refValues r c = (.err e, c') ↔ ∃ log next c1, BegunRefs r log next ∧ Executed insertText c log c1 ∧
      Failed insertText c1 next e c' :=
  ⟨refs_err_of r hd c c' e, fun ⟨_, _, _, h1, h2, h3⟩ => refs_failed r hd h1 h2 h3⟩

end Verif
