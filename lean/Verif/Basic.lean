/-!
# Basic notions shared by all model files

`Out` is the outcome of a Rust function: a value, an error value (`Err(e)`), or a
panic.  `SM σ ε α` is a Rust function working on `&mut σ`; the state after an error
(or a panic) is kept, because the Rust code can observe it (e.g. `let _ = buf.checked_eat…()`).
-/

namespace Verif

abbrev Bytes := List UInt8

/-- Rust strings (`&str`, `String`) as sequences of Unicode scalar values. -/
abbrev Str := List Char

/-- Outcome of a Rust computation. -/
inductive Out (ε α : Type) where
  | ok (a : α)
  | err (e : ε)
  | panic
  deriving DecidableEq, Repr

namespace Out

variable {ε ε' α β : Type}

def bind (x : Out ε α) (f : α → Out ε β) : Out ε β :=
  match x with
  | ok a => f a
  | err e => err e
  | panic => panic

instance : Monad (Out ε) where
  pure := Out.ok
  bind := Out.bind

@[simp] theorem pure_eq (a : α) : (pure a : Out ε α) = .ok a := rfl
@[simp] theorem ok_bind (a : α) (f : α → Out ε β) : ((Out.ok a : Out ε α) >>= f) = f a := rfl
@[simp] theorem err_bind (e : ε) (f : α → Out ε β) : ((Out.err e : Out ε α) >>= f) = .err e := rfl
@[simp] theorem panic_bind (f : α → Out ε β) : ((Out.panic : Out ε α) >>= f) = .panic := rfl

def map' (f : α → β) : Out ε α → Out ε β
  | ok a => ok (f a)
  | err e => err e
  | panic => panic

/-- `Result::map_err` / the `From` conversion applied by `?`. -/
def mapErr (f : ε → ε') : Out ε α → Out ε' α
  | ok a => ok a
  | err e => err (f e)
  | panic => panic

@[simp] theorem map'_ok (f : α → β) (a : α) : (Out.ok a : Out ε α).map' f = .ok (f a) := rfl
@[simp] theorem map'_err (f : α → β) (e : ε) : (Out.err e : Out ε α).map' f = .err e := rfl
@[simp] theorem map'_panic (f : α → β) : (Out.panic : Out ε α).map' f = .panic := rfl
@[simp] theorem mapErr_ok (f : ε → ε') (a : α) : (Out.ok a : Out ε α).mapErr f = .ok a := rfl
@[simp] theorem mapErr_err (f : ε → ε') (e : ε) : (Out.err e : Out ε α).mapErr f = .err (f e) := rfl
@[simp] theorem mapErr_panic (f : ε → ε') : (Out.panic : Out ε α).mapErr f = .panic := rfl

theorem bind_eq_ok {x : Out ε α} {f : α → Out ε β} {b : β} :
    (x >>= f) = .ok b ↔ ∃ a, x = .ok a ∧ f a = .ok b := by
  cases x <;> simp

theorem bind_ne_panic {x : Out ε α} {f : α → Out ε β}
    (hx : x ≠ .panic) (hf : ∀ a, x = .ok a → f a ≠ .panic) : (x >>= f) ≠ .panic := by
  cases x <;> simp_all

/-- an `Option`-like outcome: `None` becomes the given error. -/
def ofOption (e : ε) : Option α → Out ε α
  | some a => ok a
  | none => err e

@[simp] theorem ofOption_some (e : ε) (a : α) : ofOption e (some a) = .ok a := rfl
@[simp] theorem ofOption_none (e : ε) : ofOption (α := α) e none = .err e := rfl

end Out

/-- Rust function on `&mut σ` returning `Result<α, ε>` (or panicking). -/
def SM (σ ε α : Type) := σ → Out ε α × σ

namespace SM

variable {σ ε ε' α β : Type}

instance : Monad (SM σ ε) where
  pure a := fun s => (.ok a, s)
  bind m f := fun s => match m s with
    | (.ok a, s') => f a s'
    | (.err e, s') => (.err e, s')
    | (.panic, s') => (.panic, s')

def fail (e : ε) : SM σ ε α := fun s => (.err e, s)
def crash : SM σ ε α := fun s => (.panic, s)
def get : SM σ ε σ := fun s => (.ok s, s)
def set (s : σ) : SM σ ε Unit := fun _ => (.ok (), s)
def modify (f : σ → σ) : SM σ ε Unit := fun s => (.ok (), f s)
def ofOut (x : Out ε α) : SM σ ε α := fun s => (x, s)
/-- `let _ = m;`: run for the effect on the state, ignore an error (a panic stays a panic). -/
def ignore (m : SM σ ε α) : SM σ ε Unit := fun s => match m s with
  | (.panic, s') => (.panic, s')
  | (_, s') => (.ok (), s')
/-- look at the `Result` of `m` as a value (a panic stays a panic). -/
def attempt (m : SM σ ε α) : SM σ ε (Except ε α) := fun s => match m s with
  | (.ok a, s') => (.ok (.ok a), s')
  | (.err e, s') => (.ok (.error e), s')
  | (.panic, s') => (.panic, s')
def mapErr (f : ε → ε') (m : SM σ ε α) : SM σ ε' α := fun s =>
  ((m s).1.mapErr f, (m s).2)

@[simp] theorem pure_apply (a : α) (s : σ) : (pure a : SM σ ε α) s = (.ok a, s) := rfl
@[simp] theorem fail_apply (e : ε) (s : σ) : (fail e : SM σ ε α) s = (.err e, s) := rfl
@[simp] theorem crash_apply (s : σ) : (crash : SM σ ε α) s = (.panic, s) := rfl
@[simp] theorem get_apply (s : σ) : (get : SM σ ε σ) s = (.ok s, s) := rfl
@[simp] theorem set_apply (s t : σ) : (set t : SM σ ε Unit) s = (.ok (), t) := rfl
@[simp] theorem modify_apply (f : σ → σ) (s : σ) : (modify f : SM σ ε Unit) s = (.ok (), f s) := rfl
@[simp] theorem ofOut_apply (x : Out ε α) (s : σ) : (ofOut x : SM σ ε α) s = (x, s) := rfl
@[simp] theorem mapErr_apply (f : ε → ε') (m : SM σ ε α) (s : σ) :
    mapErr f m s = ((m s).1.mapErr f, (m s).2) := rfl

theorem bind_apply (m : SM σ ε α) (f : α → SM σ ε β) (s : σ) :
    (m >>= f) s = match m s with
      | (.ok a, s') => f a s'
      | (.err e, s') => (.err e, s')
      | (.panic, s') => (.panic, s') := rfl

theorem bind_of_ok {m : SM σ ε α} {f : α → SM σ ε β} {s s' : σ} {a : α}
    (h : m s = (.ok a, s')) : (m >>= f) s = f a s' := by
  rw [bind_apply, h]

theorem bind_of_err {m : SM σ ε α} {f : α → SM σ ε β} {s s' : σ} {e : ε}
    (h : m s = (.err e, s')) : (m >>= f) s = (.err e, s') := by
  rw [bind_apply, h]

theorem bind_of_panic {m : SM σ ε α} {f : α → SM σ ε β} {s s' : σ}
    (h : m s = (.panic, s')) : (m >>= f) s = (.panic, s') := by
  rw [bind_apply, h]

@[simp] theorem pure_bind_apply (a : α) (f : α → SM σ ε β) (s : σ) :
    ((pure a : SM σ ε α) >>= f) s = f a s := rfl
@[simp] theorem fail_bind_apply (e : ε) (f : α → SM σ ε β) (s : σ) :
    ((fail e : SM σ ε α) >>= f) s = (.err e, s) := rfl
@[simp] theorem crash_bind_apply (f : α → SM σ ε β) (s : σ) :
    ((crash : SM σ ε α) >>= f) s = (.panic, s) := rfl
@[simp] theorem get_bind_apply (f : σ → SM σ ε β) (s : σ) :
    ((get : SM σ ε σ) >>= f) s = f s s := rfl
@[simp] theorem set_bind_apply (t : σ) (f : Unit → SM σ ε β) (s : σ) :
    ((set t : SM σ ε Unit) >>= f) s = f () t := rfl
@[simp] theorem modify_bind_apply (g : σ → σ) (f : Unit → SM σ ε β) (s : σ) :
    ((modify g : SM σ ε Unit) >>= f) s = f () (g s) := rfl
theorem ofOut_bind_apply (x : Out ε α) (f : α → SM σ ε β) (s : σ) :
    ((ofOut x : SM σ ε α) >>= f) s = match x with
      | .ok a => f a s
      | .err e => (.err e, s)
      | .panic => (.panic, s) := by cases x <;> rfl
@[simp] theorem ofOut_ok_bind_apply (a : α) (f : α → SM σ ε β) (s : σ) :
    ((ofOut (.ok a) : SM σ ε α) >>= f) s = f a s := rfl

theorem bind_eq_ok {m : SM σ ε α} {f : α → SM σ ε β} {s s'' : σ} {b : β} :
    (m >>= f) s = (.ok b, s'') ↔ ∃ a s', m s = (.ok a, s') ∧ f a s' = (.ok b, s'') := by
  rw [bind_apply]
  constructor
  · intro h
    split at h
    · exact ⟨_, _, by assumption, h⟩
    · simp at h
    · simp at h
  · rintro ⟨a, s', h1, h2⟩
    rw [h1]; exact h2

/-- `m` never panics from `s`. -/
def Safe (m : SM σ ε α) (s : σ) : Prop := (m s).1 ≠ .panic

theorem safe_bind {m : SM σ ε α} {f : α → SM σ ε β} {s : σ}
    (hm : Safe m s) (hf : ∀ a s', m s = (.ok a, s') → Safe (f a) s') :
    Safe (m >>= f) s := by
  unfold Safe at *
  rw [bind_apply]
  match h : m s with
  | (.ok a, s') => simpa using hf a s' h
  | (.err e, s') => simp
  | (.panic, s') => simp [h] at hm

end SM

/-! ### Little-endian integers -/

/-- `k` little-endian bytes of `n` (higher digits cut off), as `to_le_bytes`/`put_uint_le`. -/
def leBytes : Nat → Nat → Bytes
  | 0, _ => []
  | k + 1, n => UInt8.ofNat (n % 256) :: leBytes k (n / 256)

/-- value of little-endian bytes, as `from_le_bytes`. -/
def leNat : Bytes → Nat
  | [] => 0
  | b :: bs => b.toNat + 256 * leNat bs

@[simp] theorem length_leBytes (k n : Nat) : (leBytes k n).length = k := by
  induction k generalizing n with
  | zero => rfl
  | succ k ih => simp [leBytes, ih]

theorem leNat_lt (bs : Bytes) : leNat bs < 256 ^ bs.length := by
  induction bs with
  | nil => simp [leNat]
  | cons b bs ih =>
    have := b.toNat_lt
    simp only [leNat, List.length_cons, Nat.pow_succ]
    omega

theorem leNat_leBytes (k n : Nat) : leNat (leBytes k n) = n % 256 ^ k := by
  induction k generalizing n with
  | zero => simp [leBytes, leNat, Nat.mod_one]
  | succ k ih =>
    simp only [leBytes, leNat, ih]
    have h1 : (UInt8.ofNat (n % 256)).toNat = n % 256 := by
      simp
    rw [h1, Nat.pow_succ, Nat.mul_comm (256 ^ k) 256, Nat.mod_mul]

theorem leNat_leBytes_of_lt {k n : Nat} (h : n < 256 ^ k) : leNat (leBytes k n) = n := by
  rw [leNat_leBytes, Nat.mod_eq_of_lt h]

theorem leBytes_leNat (bs : Bytes) : leBytes bs.length (leNat bs) = bs := by
  induction bs with
  | nil => rfl
  | cons b bs ih =>
    have hb := b.toNat_lt
    simp only [List.length_cons, leBytes, leNat]
    have h1 : (b.toNat + 256 * leNat bs) % 256 = b.toNat := by omega
    have h2 : (b.toNat + 256 * leNat bs) / 256 = leNat bs := by omega
    rw [h1, h2, ih]
    simp

end Verif
