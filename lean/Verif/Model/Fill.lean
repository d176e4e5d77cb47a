import Verif.Model.Query

/-!
# A program with several connections

Mirrors `examples/migrations/migrations/v0_1_1.rs`: a migration that fills a column it has added.  It
works with three connections of the pool at the same time.
-/

namespace Verif

/-- the connections of a program, and what it has written: the number of the connection and the bytes of
one call. -/
structure Conns where
  conn : Nat → Conn
  log : List (Nat × Bytes)

/-- a call on one of the connections. -/
def on {α : Type} (i : Nat) (x : M α) : SM Conns Error α := fun s =>
  let y := x (s.conn i)
  let new := y.2.tx.drop (s.conn i).tx.length
  (y.1, { conn := fun j => if j = i then y.2 else s.conn j
          log := if new = [] then s.log else s.log ++ [(i, new)] })

/-- v0_1_1.rs 25-27. -/
def fillAlterSql : Str :=
  "ALTER TABLE `user`
                    ADD COLUMN `primary_address` INT UNSIGNED NULL,
                    ADD CONSTRAINT `user-primary_address` FOREIGN KEY (`primary_address`) REFERENCES `address`(`id`)".toList
/-- v0_1_1.rs 34. -/
def fillUsersSql : Str := "SELECT `id` FROM `user`".toList
/-- v0_1_1.rs 36. -/
def fillAddressesSql : Str := "SELECT `id` FROM `address` WHERE `user` = ? LIMIT 2".toList
/-- v0_1_1.rs 39. -/
def fillUpdateSql : Str := "UPDATE `user` SET `primary_address` = ? WHERE `id` = ?".toList
/-- v0_1_1.rs 63-65. -/
def fillDownSql : Str :=
  "ALTER TABLE `user`
                    DROP CONSTRAINT `user-primary_address`,
                    DROP COLUMN `primary_address`".toList

/-- v0_1_1.rs 43-48: the body of the loop, with the connections `i1` and `i2`; `&address[0]` and `&user[0]`
would panic on an empty row. -/
def fillUser (i1 i2 : Nat) (addresses update : Prepared) (user : List Value) : SM Conns Error Unit := do
  let rs ← on i1 (addresses.query user)
  let (rs, first) ← on i1 (rs.next (binReader mkPlain))
  match first with
  | none => pure ()
  | some address => do
    let (_, second) ← on i1 (rs.one (binReader mkPlain))
    if second.isNone && user.length == 1 && address.length == 1 then
      match address, user with
      | a :: _, u :: _ => do
        let _ ← on i2 (update.execute [a, u])
        pure ()
      | _, _ => SM.crash
    else pure ()

/-- v0_1_1.rs 42-49: the loop; `fuel` bounds the number of rounds. -/
def fillLoop (i0 i1 i2 : Nat) (fp : FloatParse) (addresses update : Prepared) : Nat → RSet → SM Conns Error Unit
  | 0, _ => SM.crash
  | fuel + 1, users => do
    let (users, user?) ← on i0 (users.next (textReader fp mkPlain))
    match user? with
    | none => pure ()
    | some user => do
      fillUser i1 i2 addresses update user
      fillLoop i0 i1 i2 fp addresses update fuel users

/-- v0_1_1.rs 24-28. -/
def fillAlter (i0 : Nat) : SM Conns Error Unit := do
  let _ ← on i0 (executeQuery fillAlterSql)
  pure ()

/-- v0_1_1.rs 33-50.  Every round of the loop takes a packet off the first connection, so their number is
bounded by what arrives on it. -/
def fillRows (i0 i1 i2 : Nat) (fp : FloatParse) : SM Conns Error Unit := do
  let users ← on i0 (query fillUsersSql)
  let addresses ← on i1 (prepareStatement fillAddressesSql)
  let update ← on i2 (prepareStatement fillUpdateSql)
  let s ← SM.get
  fillLoop i0 i1 i2 fp addresses update ((s.conn i0).rx.length + 2) users

/-- v0_1_1.rs 22-51 `up`, with the connections `i0`, `i1` and `i2` of the pool (23, 30, 31). -/
def fill (i0 i1 i2 : Nat) (fp : FloatParse) : SM Conns Error Unit := do
  fillAlter i0
  fillRows i0 i1 i2 fp

/-- v0_1_1.rs 59-69 `down`. -/
def fillDown (i0 : Nat) : SM Conns Error Unit := do
  let _ ← on i0 (executeQuery fillDownSql)
  pure ()

end Verif
