import Verif.Model.Display
import Verif.Model.Text
import Verif.Model.Crypt
import Verif.Props.C70_Derive

/-!
# The unit tests of the repository

Every assertion of every `#[test]` in /repo, for the model: the model does what the tests say of the code. (Numbers of
lines are those of the assertions.)
-/

namespace Verif.UnitTests

/-- src/types/value/text.rs 396-419 `string_escape`. -/
theorem stringEscape_test :
    stringEscape "Robert'); DROP TABLE Students;--".toList = r#""Robert\'); DROP TABLE Students;--""#.toList ∧
    stringEscape r#"" or ""=""#.toList = r#""\" or \"\"=\"""#.toList ∧
    stringEscape "' or ''='".toList = r#""\' or \'\'=\'""#.toList ∧
    stringEscape "abc\x00def".toList = r#""abc\0def""#.toList ∧
    stringEscape "abc\x08def".toList = r#""abc\bdef""#.toList ∧
    stringEscape "abc\ndef".toList = r#""abc\ndef""#.toList ∧
    stringEscape "abc\rdef".toList = r#""abc\rdef""#.toList ∧
    stringEscape "abc\tdef".toList = r#""abc\tdef""#.toList ∧
    stringEscape "abc\x1Adef".toList = r#""abc\zdef""#.toList ∧
    stringEscape "abc\'def".toList = r#""abc\'def""#.toList ∧
    stringEscape "abc\"def".toList = r#""abc\"def""#.toList ∧
    stringEscape "abc\\def".toList = r#""abc\\def""#.toList := by
  refine ⟨?_, ?_, ?_, ?_, ?_, ?_, ?_, ?_, ?_, ?_, ?_, ?_⟩ <;> decide +kernel

/-- src/types/value/text.rs 421-428 `identifier_escape`. -/
theorem identifierEscape_test :
    identifierEscape "id".toList = "`id`".toList ∧
    identifierEscape "i d ".toList = "`i d`".toList ∧
    identifierEscape "äöü".toList = "`äöü`".toList ∧
    identifierEscape "`test`".toList = "```test```".toList ∧
    identifierEscape ("\x00test".toList ++ [Char.ofNat 0x10000]) = "`test`".toList := by
  refine ⟨?_, ?_, ?_, ?_, ?_⟩ <;> decide +kernel

/-- src/types/value/text.rs 430-439 `unquoted_identifier_escape`. -/
theorem unquotedIdentifierEscape_test :
    unquotedIdentifierEscape "test id".toList = "testid".toList ∧
    unquotedIdentifierEscape "Id0".toList = "Id0".toList ∧
    unquotedIdentifierEscape "0$_äöü".toList = "0$_äöü".toList ∧
    unquotedIdentifierEscape "`id`".toList = "id".toList ∧
    unquotedIdentifierEscape "\"id\"".toList = "id".toList ∧
    unquotedIdentifierEscape "'id'".toList = "id".toList ∧
    unquotedIdentifierEscape "\\bid".toList = "bid".toList := by
  refine ⟨?_, ?_, ?_, ?_, ?_, ?_, ?_⟩ <;> decide +kernel

/-- src/types/value/text.rs 441-467 `display`; the texts of floats are those of the
standard library, which has to say "4.5" for 4.5. -/
theorem display_test (ff : FloatFmt) (h : ff.f32 0x40900000 = "4.5".toList) :
    display ff .null = .ok "NULL".toList ∧
    display ff (.int (-5)) = .ok "-5".toList ∧
    display ff (.float 0x40900000) = .ok "4.5".toList ∧
    display ff (.bytes [32, 64, 123, 213]) = .ok "0x20407bd5".toList ∧
    display ff (.date 2038 1 19) = .ok "\"2038-01-19\"".toList ∧
    display ff (.time false 0 4 5 8 0) = .ok "\"04:05:08\"".toList ∧
    display ff (.time false 6 4 15 18 50) = .ok "\"148:15:18.000050\"".toList ∧
    display ff (.datetime 2038 1 19 3 14 7 0) = .ok "\"2038-01-19 03:14:07\"".toList ∧
    display ff (.datetime 2038 1 19 3 14 7 50) = .ok "\"2038-01-19 03:14:07.000050\"".toList := by
  refine ⟨?_, ?_, ?_, ?_, ?_, ?_, ?_, ?_, ?_⟩ <;> simp only [display, h] <;> decide +kernel

/-- src/types/value/text.rs 469-492 `parse`. -/
theorem parse_test :
    dateText (ascii "2038-01-19") = .ok (.date 2038 1 19) ∧
    timeText (ascii "04:05:08") = .ok (.time false 0 4 5 8 0) ∧
    timeText (ascii "148:15:18.000050") = .ok (.time false 6 4 15 18 50) ∧
    datetimeText (ascii "2038-01-19 03:14:07") = .ok (.datetime 2038 1 19 3 14 7 0) ∧
    datetimeText (ascii "2038-01-19 03:14:07.000050") = .ok (.datetime 2038 1 19 3 14 7 50) := by
  refine ⟨?_, ?_, ?_, ?_, ?_⟩ <;> decide +kernel

/-- src/types/hex.rs 114-119 `to_string_and_from_str`. -/
theorem hex_test :
    hexDisplay (ascii "hello hex") = "0x68656c6c6f20686578".toList ∧
    hexFromStr (utf8 (hexDisplay (ascii "hello hex"))) = .ok (ascii "hello hex") ∧
    tryFromHex (utf8 (hexDisplay (ascii "hello hex"))) = .ok (ascii "hello hex") := by
  refine ⟨?_, ?_, ?_⟩ <;> decide +kernel

open C70ex in
/-- src/model/test.rs 25-34 `Map`. -/
def map : Item where
  attrs := [.other, .other, .ours (some [kv "table" "map", kv "primary" "id", kv "auto_increment" "true"])]
  data := .named [⟨nm "id", ty ["u32"]⟩, ⟨nm "name", ty ["String"]⟩, ⟨nm "difficulty", ty ["u8"]⟩,
    ⟨nm "last_played", .path (.mk ["Option".toList] (some (.mk ["NaiveDateTime".toList] none)))⟩]

open C70ex in
/-- src/model/test.rs 13-24 `Entity`. -/
def entity : Item where
  attrs := [.other, .other, .ours (some [kv "table" "entity", kv "primary" "id", kv "auto_increment" "true",
    { key := some "ty".toList, val := .struct (.mk ["Vector3".toList] none)
        [⟨some (nm "x"), false, none⟩, ⟨some (nm "y"), false, none⟩, ⟨some (nm "z"), false, none⟩] }])]
  data := .named [⟨nm "id", ty ["u32"]⟩, ⟨nm "name", ty ["String"]⟩, ⟨nm "position", ty ["Vector3"]⟩,
    ⟨nm "heading", ty ["f32"]⟩, ⟨nm "model", ty ["u32"]⟩, ⟨nm "spawn_after", ty ["Duration"]⟩, ⟨nm "map", ty ["Map"]⟩]

/-- src/model/test.rs 36-53 `test_into_query`. -/
theorem intoQuery_test :
    ((Decl.mk map .nil).queryDef C70ex.rules).map buildQuery =
      some "select `map`.`id`, `map`.`name`, `map`.`difficulty`, `map`.`last_played` from `map`".toList ∧
    ((Decl.mk entity (.cons (.mk map .nil) .nil)).queryDef C70ex.rules).map buildQuery = some
      ("select `entity`.`id`, `entity`.`name`, `entity`.`heading`, `entity`.`model`, `entity`.`spawn_after`, " ++
        "`entity`.`position_x`, `entity`.`position_y`, `entity`.`position_z`, " ++
        "`entity.map`.`id`, `entity.map`.`name`, `entity.map`.`difficulty`, `entity.map`.`last_played` " ++
        "from `entity` join `map` as `entity.map` on (`entity`.`map` = `entity.map`.`id`)").toList := by
  refine ⟨?_, ?_⟩ <;> decide +kernel

end Verif.UnitTests
