import Verif.Proofs.Stmt
import Verif.Spec.ParamTypes

/-!
# C05 — statement parameters reach the server unchanged

`Spec.readExecute` (Verif/Spec/Value.lean) is a server decoding COM_STMT_EXECUTE.
-/

namespace Verif

/-- Building the request never panics, and a server decodes it to the statement id, no cursor, one
iteration and the given parameters with their types, when everything fits one packet. -/
theorem C05_params_reach_server (id : UInt32) (vs : List Value)
    (hb : ∀ b, .bytes b ∈ vs → b.length < 2 ^ 64) :
    ∃ r, ExecRequest.new (ε := Empty) id vs = .ok r ∧
      (r.asLongData = false →
        Spec.readExecute vs.length (fun _ => none) r.serialize
          = some { stmtId := id.toNat, cursorType := 0, iterations := 1,
                   params := vs.map Spec.meaning }) := by
  obtain ⟨bm, h1, -⟩ := ExecRequest.new_spec (ε := Empty) id vs
  refine ⟨_, h1, fun hl => ?_⟩
  have := ExecRequest.readExecute_spec id vs _ hb h1
  have e : ExecRequest.longOf false vs = fun _ => none := by
    funext i; simp [ExecRequest.longOf]
  rw [hl, e] at this
  exact this

/-- The same when byte strings were sent ahead as long data (C06 shows that they are). -/
theorem C05_params_with_long_data (id : UInt32) (vs : List Value)
    (hb : ∀ b, .bytes b ∈ vs → b.length < 2 ^ 64) (long : Nat → Option Bytes)
    (hlong : ∀ i, long i = match vs[i]? with | some (.bytes b) => some b | _ => none) :
    ∃ r, ExecRequest.new (ε := Empty) id vs = .ok r ∧
      (r.asLongData = true →
        Spec.readExecute vs.length long r.serialize
          = some { stmtId := id.toNat, cursorType := 0, iterations := 1,
                   params := vs.map Spec.meaning }) := by
  obtain ⟨bm, h1, -⟩ := ExecRequest.new_spec (ε := Empty) id vs
  refine ⟨_, h1, fun hl => ?_⟩
  have := ExecRequest.readExecute_spec id vs _ hb h1
  have e : ExecRequest.longOf true vs = long := by
    funext i
    rw [hlong]
    simp only [ExecRequest.longOf, if_true]
    cases vs[i]? with
    | none => rfl
    | some v => cases v <;> rfl
  rw [hl, e] at this
  exact this

/-- A value alone: whatever follows it on the wire, the server reads its meaning and stops at its
end. -/
theorem C05_value_self_delimiting (v : Value) (rest : Bytes)
    (hb : ∀ b, v = .bytes b → b.length < 2 ^ 64) :
    Spec.readBin v.columnType.toByte.toNat v.isUnsigned (v.serialize ++ rest)
      = some (Spec.meaning v, rest) :=
  readBin_serialize v rest hb

/-- `meaning` forgets nothing but the sign of a zero TIME: different values are different for the
server. -/
theorem C05_meaning_injective (v w : Value) (h : Spec.meaning v = Spec.meaning w) :
    v = w ∨ (v = .time true 0 0 0 0 0 ∧ w = .time false 0 0 0 0 0) ∨
      (v = .time false 0 0 0 0 0 ∧ w = .time true 0 0 0 0 0) := by
  cases v <;> cases w <;> simp [Spec.meaning, Spec.mkTime] at h
  case null.null => simp
  case tiny.tiny => simp [Int8.toInt_inj.mp h]
  case short.short => simp [Int16.toInt_inj.mp h]
  case int.int => simp [Int32.toInt_inj.mp h]
  case long.long => simp [Int64.toInt_inj.mp h]
  case utiny.utiny => simp [UInt8.toNat_inj.mp (Int.ofNat_inj.mp h)]
  case ushort.ushort => simp [UInt16.toNat_inj.mp (Int.ofNat_inj.mp h)]
  case uint.uint => simp [UInt32.toNat_inj.mp (Int.ofNat_inj.mp h)]
  case ulong.ulong => simp [UInt64.toNat_inj.mp (Int.ofNat_inj.mp h)]
  case float.float => simp [UInt32.toNat_inj.mp h]
  case double.double => simp [UInt64.toNat_inj.mp h]
  case bytes.bytes => simp [h]
  case date.date =>
    simp [UInt16.toNat_inj.mp h.1, UInt8.toNat_inj.mp h.2.1, UInt8.toNat_inj.mp h.2.2]
  case datetime.datetime =>
    simp [UInt16.toNat_inj.mp h.1, UInt8.toNat_inj.mp h.2.1, UInt8.toNat_inj.mp h.2.2.1,
      UInt8.toNat_inj.mp h.2.2.2.1, UInt8.toNat_inj.mp h.2.2.2.2.1,
      UInt8.toNat_inj.mp h.2.2.2.2.2.1, UInt32.toNat_inj.mp h.2.2.2.2.2.2]
  case time.time n1 d1 h1 m1 s1 u1 n2 d2 h2 m2 s2 u2 =>
    obtain ⟨g0, g1, g2, g3, g4, g5⟩ := h
    rw [UInt32.toNat_inj] at g1 g5
    rw [UInt8.toNat_inj] at g2 g3 g4
    subst g1 g2 g3 g4 g5
    cases n1 <;> cases n2 <;> simp_all
    · obtain ⟨⟨⟨⟨a, b⟩, c⟩, d⟩, e⟩ := g0
      simp only [← UInt32.toNat_inj, ← UInt8.toNat_inj, a, b, c, d, e]; decide
    · obtain ⟨⟨⟨⟨a, b⟩, c⟩, d⟩, e⟩ := g0
      simp only [← UInt32.toNat_inj, ← UInt8.toNat_inj, a, b, c, d, e]; decide

/-- The types: a server is told the type and the signedness of every parameter, also of those that are NULL or were sent as
long data. -/
theorem C05_types (id : UInt32) (vs : List Value) (r : ExecRequest) (h : ExecRequest.new (ε := Empty) id vs = .ok r) :
    Spec.readBound vs.length r.serialize = some (vs.map Spec.boundType) := by
  obtain ⟨bm, h1, h2, -⟩ := ExecRequest.new_spec (ε := Empty) id vs
  rw [h] at h1
  injection h1 with h1
  subst h1
  by_cases hv : vs = []
  · subst hv
    rfl
  · have hl : ¬ vs.length = 0 := by simpa using hv
    have hh : ∀ (a b : Bytes), a.length = 4 → b.length = 4 → ∀ t : Bytes,
        ([Command.stmtExecute.toByte] ++ a ++ [0] ++ b ++ (bm ++ [1]) ++ t).drop (10 + (vs.length + 7) / 8) = 1 :: t := by
      intro a b ha hb t
      have e : [Command.stmtExecute.toByte] ++ a ++ [0] ++ b ++ (bm ++ [1]) ++ t
          = ([Command.stmtExecute.toByte] ++ a ++ [0] ++ b ++ bm) ++ (1 :: t) := by simp
      rw [e, List.drop_left' (by simp [ha, hb, h2]; omega)]
    unfold Spec.readBound
    rw [if_neg hl]
    simp only [ExecRequest.serialize, if_neg hv]
    rw [List.append_assoc _ (vs.flatMap ExecRequest.paramType), hh _ _ (by simp) (by simp)]
    simp only [ExecRequest.readTypes_paramType, Option.map_some, Option.some.injEq]
    refine List.map_congr_left fun v _ => ?_
    cases v <;> rfl

-- a byte string, an unsigned number and NULL
example : ((match ExecRequest.new (ε := Empty) 7 [.bytes [1], .uint 5, .null] with
      | .ok r => Spec.readBound 3 r.serialize
      | _ => none) = some [(253, false), (3, true), (6, false)]) := by decide +kernel

-- nine parameters of mixed types with two NULLs
example :
    let vs : List Value := [.null, .tiny (-5), .ulong 18446744073709551615, .bytes [1, 0, 255],
      .date 2024 2 29, .null, .time true 1 2 3 4 0, .datetime 2038 1 19 3 14 7 50, .double 0]
    (match ExecRequest.new (ε := Empty) 7 vs with
      | .ok r => some (r.bitmap, r.asLongData, r.serialize.length)
      | _ => none) = some ([0x21, 0], false, 78) := by decide +kernel

example : Spec.readBin 8 true ((Value.ulong 300).serialize ++ [9]) = some (.int 8 true 300, [9]) ∧
    (Value.ulong 300).columnType.toByte = 8 := by decide +kernel

end Verif
