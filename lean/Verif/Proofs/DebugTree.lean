import Verif.Spec.DebugTree
import Verif.Props.C82_ErrorText

/-!
# Lemmas: printed trees
-/

namespace Verif

open Spec (DbgTok lexN lexAll plainChar itemN itemsN readTree Readable ReadableItems plainWord)

/-! ### tokens -/

/-- what the tokens of a text are, with strings as they are printed. -/
inductive Lexes (special : Char → Bool) : Str → List DbgTok → Prop where
  | nil : Lexes special [] []
  | blank {r ts} (c : Char) (h : c = ' ' ∨ c = '\n') (hr : Lexes special r ts) : Lexes special (c :: r) ts
  | opening {r ts} (c : Char) (h : c = '(' ∨ c = '{' ∨ c = '[') (hr : Lexes special r ts) :
      Lexes special (c :: r) (.opening c :: ts)
  | closing {r ts} (c : Char) (h : c = ')' ∨ c = '}' ∨ c = ']') (hr : Lexes special r ts) :
      Lexes special (c :: r) (.closing c :: ts)
  | comma {r ts} (hr : Lexes special r ts) : Lexes special (',' :: r) (.comma :: ts)
  | colon {r ts} (hr : Lexes special r ts) : Lexes special (':' :: r) (.colon :: ts)
  | text {r ts} (s : Str) (hr : Lexes special r ts) : Lexes special (debugStr special s ++ r) (.text s :: ts)
  | word {r ts} (w : Str) (h : plainWord w) (hh : ∀ c ∈ r.head?, plainChar c = false) (hr : Lexes special r ts) :
      Lexes special (w ++ r) (.word w :: ts)

theorem plainChar_ne {c : Char} (h : plainChar c = true) :
    c ≠ ' ' ∧ c ≠ '\n' ∧ c ≠ '(' ∧ c ≠ ')' ∧ c ≠ '{' ∧ c ≠ '}' ∧ c ≠ '[' ∧ c ≠ ']' ∧ c ≠ ',' ∧ c ≠ ':' ∧ c ≠ '"' := by
  refine ⟨?_, ?_, ?_, ?_, ?_, ?_, ?_, ?_, ?_, ?_, ?_⟩ <;> (rintro rfl; revert h; decide)

theorem lexN_of_lexes {special : Char → Bool} {s : Str} {ts : List DbgTok} (h : Lexes special s ts) :
    ∀ n, s.length ≤ n → lexN n s = some ts := by
  induction h with
  | nil => intro n _; rw [lexN]
  | blank c h hr ih =>
    intro n hn
    cases n with
    | zero => simp at hn
    | succ n => rw [lexN, if_pos h, ih n (by simpa using hn)]
  | opening c h hr ih =>
    intro n hn
    cases n with
    | zero => simp at hn
    | succ n =>
      rw [lexN, if_neg (by rcases h with rfl | rfl | rfl <;> decide), if_pos h, ih n (by simpa using hn)]; rfl
  | closing c h hr ih =>
    intro n hn
    cases n with
    | zero => simp at hn
    | succ n =>
      rw [lexN, if_neg (by rcases h with rfl | rfl | rfl <;> decide),
        if_neg (by rcases h with rfl | rfl | rfl <;> decide), if_pos h, ih n (by simpa using hn)]; rfl
  | comma hr ih =>
    intro n hn
    cases n with
    | zero => simp at hn
    | succ n =>
      rw [lexN, if_neg (by decide), if_neg (by decide), if_neg (by decide), if_pos rfl, ih n (by simpa using hn)]; rfl
  | colon hr ih =>
    intro n hn
    cases n with
    | zero => simp at hn
    | succ n =>
      rw [lexN, if_neg (by decide), if_neg (by decide), if_neg (by decide), if_neg (by decide), if_pos rfl,
        ih n (by simpa using hn)]; rfl
  | @text r ts s hr ih =>
    intro n hn
    have hl := C82_literal special s r
    have e : debugStr special s ++ r = '"' :: (s.flatMap (debugChar special) ++ ['"'] ++ r) := rfl
    cases n with
    | zero => rw [e] at hn; simp at hn
    | succ n =>
      rw [e] at hl hn ⊢
      rw [lexN, if_neg (by decide), if_neg (by decide), if_neg (by decide), if_neg (by decide), if_neg (by decide),
        if_pos rfl, hl]
      dsimp only [Option.bind_some]
      rw [ih n (by simp at hn; omega)]; rfl
  | @word r ts w h hh hr ih =>
    intro n hn
    obtain ⟨h1, h2⟩ := h
    cases w with
    | nil => exact absurd rfl h1
    | cons c w =>
      rw [List.all_cons, Bool.and_eq_true] at h2
      obtain ⟨a1, a2, a3, a4, a5, a6, a7, a8, a9, a10, a11⟩ := plainChar_ne h2.1
      obtain ⟨t1, t2⟩ := takeWhile_split plainChar w r (by simpa using h2.2) hh
      cases n with
      | zero => simp at hn
      | succ n =>
        rw [List.cons_append, lexN, if_neg (by rintro (h | h) <;> contradiction),
          if_neg (by rintro (h | h | h) <;> contradiction), if_neg (by rintro (h | h | h) <;> contradiction),
          if_neg a9, if_neg a10, if_neg a11, t1, t2, ih n (by simp at hn; omega)]
        rfl

theorem Lexes.append {special : Char → Bool} {a b : Str} {ta tb : List DbgTok} (ha : Lexes special a ta)
    (hb : Lexes special b tb) (hh : ∀ c ∈ b.head?, plainChar c = false) : Lexes special (a ++ b) (ta ++ tb) := by
  induction ha with
  | nil => exact hb
  | blank c h _ ih => exact .blank c h ih
  | opening c h _ ih => exact .opening c h ih
  | closing c h _ ih => exact .closing c h ih
  | comma _ ih => exact .comma ih
  | colon _ ih => exact .colon ih
  | text s _ ih => rw [List.append_assoc]; exact .text s ih
  | @word r ts w h h' _ ih =>
    rw [List.append_assoc]
    refine .word w h ?_ ih
    cases r with
    | nil => exact hh
    | cons c r => exact h'

theorem debugStr_noline (special : Char → Bool) (s : Str) : '\n' ∉ debugStr special s := by
  unfold debugStr
  simp only [List.mem_cons, List.mem_append, List.mem_flatMap, List.not_mem_nil, or_false]
  rintro (h | ⟨c, _, h⟩ | h)
  · revert h; decide
  · unfold debugChar at h
    by_cases h1 : c = '\x00'
    · rw [if_pos h1] at h; revert h; decide
    rw [if_neg h1] at h
    by_cases h2 : c = '\t'
    · rw [if_pos h2] at h; revert h; decide
    rw [if_neg h2] at h
    by_cases h3 : c = '\r'
    · rw [if_pos h3] at h; revert h; decide
    rw [if_neg h3] at h
    by_cases h4 : c = '\n'
    · rw [if_pos h4] at h; revert h; decide
    rw [if_neg h4] at h
    by_cases h5 : c = '\\'
    · rw [if_pos h5] at h; revert h; decide
    rw [if_neg h5] at h
    by_cases h6 : c = '"'
    · rw [if_pos h6] at h; revert h; decide
    rw [if_neg h6] at h
    split at h
    · rw [List.mem_append, List.mem_append] at h
      rcases h with (h | h) | h
      · revert h; decide
      · have : ∀ (n : Nat), '\n' ∉ hexStr n := by
          intro n
          induction n using Nat.strongRecOn with
          | _ n ih =>
            have hd : ∀ d < 16, '\n' ≠ hexDigit d := by decide
            rw [hexStr]
            split
            · rename_i hn
              rw [List.mem_singleton]
              exact hd n hn
            · rw [List.mem_append, List.mem_singleton]
              rintro (h | h)
              · exact ih _ (by omega) h
              · exact hd _ (by omega) h
        exact this _ h
      · revert h; decide
    · rw [List.mem_singleton] at h
      exact h4 h.symm
  · revert h; decide

theorem padLines_line (x r : Str) (h : '\n' ∉ x) : padLines false (x ++ r) = x ++ padLines false r := by
  induction x with
  | nil => rfl
  | cons c x ih =>
    rw [List.mem_cons, not_or] at h
    have : (c == '\n') = false := by simpa using fun e => h.1 e.symm
    rw [List.cons_append, padLines, this, ih h.2]
    rfl

theorem padLines_line' (b : Bool) (c : Char) (x r : Str) (h : '\n' ∉ c :: x) :
    padLines b (c :: x ++ r) = (if b then "    ".toList else []) ++ (c :: x ++ padLines false r) := by
  have h' := h
  rw [List.mem_cons, not_or] at h
  have : (c == '\n') = false := by simpa using fun e => h.1 e.symm
  rw [List.cons_append, padLines, this, padLines_line x r h.2]
  rfl

theorem Lexes.indent {special : Char → Bool} {s : Str} {ts : List DbgTok} (b : Bool) (h : Lexes special s ts) :
    Lexes special ((if b then "    ".toList else []) ++ s) ts := by
  cases b with
  | false => exact h
  | true => exact .blank _ (.inl rfl) (.blank _ (.inl rfl) (.blank _ (.inl rfl) (.blank _ (.inl rfl) h)))

/-- blanks at the beginnings of lines change nothing. -/
theorem Lexes.pad {special : Char → Bool} {s : Str} {ts : List DbgTok} (h : Lexes special s ts) :
    ∀ b, Lexes special (padLines b s) ts := by
  induction h with
  | nil => intro b; exact .nil
  | blank c h _ ih => intro b; exact .indent b (.blank c h (ih _))
  | opening c h _ ih => intro b; exact .indent b (.opening c h (ih _))
  | closing c h _ ih => intro b; exact .indent b (.closing c h (ih _))
  | comma _ ih => intro b; exact .indent b (.comma (ih _))
  | colon _ ih => intro b; exact .indent b (.colon (ih _))
  | @text r ts s _ ih =>
    intro b
    have hl := debugStr_noline special s
    unfold debugStr at hl
    have := padLines_line' b _ _ r hl
    have e := Lexes.indent b (.text s (ih false))
    unfold debugStr at e ⊢
    rw [this]
    exact e
  | @word r ts w h hh _ ih =>
    intro b
    cases w with
    | nil => exact absurd rfl h.1
    | cons c w =>
      have hl : '\n' ∉ c :: w := by
        intro hm
        have := List.all_eq_true.1 h.2 _ hm
        revert this; decide
      rw [padLines_line' b _ _ _ hl]
      refine .indent b (.word _ h ?_ (ih false))
      cases r with
      | nil => simp [padLines]
      | cons d r =>
        intro x hx
        exact hh x hx

/-! ### the tokens of a tree -/

def DbgShape.openChar : DbgShape → Char
  | .tuple => '(' | .struct => '{' | .list => '['
def DbgShape.closeChar : DbgShape → Char
  | .tuple => ')' | .struct => '}' | .list => ']'

mutual
def Dbg.toks (trail : Bool) : Dbg → List DbgTok
  | .word s => [.word s]
  | .text s => [.text s]
  | .group sh name items =>
    (if sh = .list then [] else [.word name]) ++ (.opening sh.openChar :: (items.toks trail sh ++ [.closing sh.closeChar]))

def DbgItems.toks (trail : Bool) (sh : DbgShape) : DbgItems → List DbgTok
  | .nil => []
  | .cons l d r =>
    (if sh = .struct then [.word l, .colon] else []) ++ (d.toks trail ++
      ((if trail || !r.isNil then [.comma] else []) ++ r.toks trail sh))
end

theorem lexes_word {special : Char → Bool} {w : Str} (h : plainWord w) : Lexes special w [.word w] := by
  have := Lexes.word w h (by simp) (Lexes.nil (special := special))
  rwa [List.append_nil] at this

theorem lexes_label {special : Char → Bool} {s : Str} {ts : List DbgTok} (sh : DbgShape) (l : Str)
    (hl : if sh = .struct then plainWord l else l = []) (h : Lexes special s ts) :
    Lexes special (sh.label l ++ s) ((if sh = .struct then [.word l, .colon] else []) ++ ts) := by
  unfold DbgShape.label
  by_cases hs : sh = .struct
  · rw [if_pos hs] at hl ⊢
    rw [if_pos hs, List.append_assoc]
    refine .word l hl (fun c hc => ?_) (.colon (.blank _ (.inl rfl) h))
    obtain rfl : ':' = c := by simpa using hc
    decide
  · rw [if_neg hs, if_neg hs]
    exact h

theorem closes_plain (sh : DbgShape) (c : Char) : (c ∈ sh.closed.head? → plainChar c = false)
    ∧ (c ∈ sh.closedP.head? → plainChar c = false) ∧ (c ∈ sh.opened.head? → plainChar c = false)
    ∧ (c ∈ sh.openedP.head? → plainChar c = false) := by
  cases sh <;>
    (refine ⟨?_, ?_, ?_, ?_⟩ <;> (intro h; rw [Option.mem_def] at h; cases h; decide))

theorem lexes_opened {special : Char → Bool} {s : Str} {ts : List DbgTok} (sh : DbgShape) (h : Lexes special s ts) :
    Lexes special (sh.opened ++ s) (.opening sh.openChar :: ts) := by
  cases sh with
  | tuple => exact .opening _ (by decide) h
  | struct => exact .blank _ (.inl rfl) (.opening _ (by decide) (.blank _ (.inl rfl) h))
  | list => exact .opening _ (by decide) h

theorem lexes_openedP {special : Char → Bool} {s : Str} {ts : List DbgTok} (sh : DbgShape) (h : Lexes special s ts) :
    Lexes special (sh.openedP ++ s) (.opening sh.openChar :: ts) := by
  cases sh with
  | tuple => exact .opening _ (by decide) (.blank _ (.inr rfl) h)
  | struct => exact .blank _ (.inl rfl) (.opening _ (by decide) (.blank _ (.inr rfl) h))
  | list => exact .opening _ (by decide) (.blank _ (.inr rfl) h)

theorem lexes_closed {special : Char → Bool} (sh : DbgShape) : Lexes special sh.closed [.closing sh.closeChar] := by
  cases sh with
  | tuple => exact .closing _ (by decide) .nil
  | struct => exact .blank _ (.inl rfl) (.closing _ (by decide) .nil)
  | list => exact .closing _ (by decide) .nil

theorem lexes_closedP {special : Char → Bool} (sh : DbgShape) : Lexes special sh.closedP [.closing sh.closeChar] := by
  cases sh with
  | tuple => exact .closing _ (by decide) .nil
  | struct => exact .closing _ (by decide) .nil
  | list => exact .closing _ (by decide) .nil

theorem head_append {p : Char → Prop} (a b : Str) (ha : ∀ c ∈ a.head?, p c) (hb : ∀ c ∈ b.head?, p c) :
    ∀ c ∈ (a ++ b).head?, p c := by
  cases a with
  | nil => exact hb
  | cons d a => exact ha

theorem lexes_group {special : Char → Bool} (sh : DbgShape) (name : Str) (items : DbgItems) (none body : Str)
    (ts : List DbgTok)
    (hn : if sh = .list then name = [] else plainWord name ∧ items.isNil = false)
    (hb : items.isNil = false → Lexes special body ts ∧ ∀ c ∈ body.head?, plainChar c = false)
    (h0 : items.isNil = true → sh = .list → Lexes special none ts) :
    Lexes special (name ++ (if items.isNil then none else body))
      ((if sh = .list then [] else [.word name]) ++ ts) := by
  by_cases hs : sh = .list
  · rw [if_pos hs] at hn ⊢
    rw [hn]
    cases hi : items.isNil with
    | true => exact h0 hi hs
    | false => exact (hb hi).1
  · rw [if_neg hs] at hn ⊢
    rw [hn.2]
    exact .word _ hn.1 (hb hn.2).2 (hb hn.2).1

mutual
theorem compact_lexes (special : Char → Bool) : (d : Dbg) → Readable d → Lexes special (d.compact special) (d.toks false)
  | .word s, h => by
    rw [Dbg.compact, Dbg.toks]
    rw [Readable] at h
    exact lexes_word h
  | .text s, _ => by
    rw [Dbg.compact, Dbg.toks]
    have := Lexes.text s (Lexes.nil (special := special))
    rwa [List.append_nil] at this
  | .group sh name items, h => by
    rw [Dbg.compact, Dbg.toks]
    rw [Readable] at h
    refine lexes_group sh name items _ _ _ h.1 (fun _ => ?_) (fun hi hs => ?_)
    · constructor
      · rw [List.append_assoc]
        exact lexes_opened sh ((compact_items special sh true items h.2).append (lexes_closed sh)
          (fun c => (closes_plain sh c).1))
      · rw [List.append_assoc]
        cases sh <;> (intro c hc; rw [Option.mem_def] at hc; cases hc; decide)
    · subst hs
      cases items with
      | nil => exact .opening _ (by decide) (.closing _ (by decide) .nil)
      | cons l d r => simp [DbgItems.isNil] at hi

theorem compact_items (special : Char → Bool) (sh : DbgShape) : (first : Bool) → (i : DbgItems) → ReadableItems sh i →
    Lexes special (i.compact special sh first) ((if first || i.isNil then [] else [.comma]) ++ i.toks false sh)
  | first, .nil, _ => by
    rw [DbgItems.compact, DbgItems.toks]
    simp only [DbgItems.isNil, Bool.or_true, if_true, List.append_nil]
    exact .nil
  | first, .cons l d r, h => by
    rw [ReadableItems] at h
    have hd := compact_lexes special d h.2.1
    have hr := compact_items special sh false r h.2.2
    have hh : ∀ c ∈ (r.compact special sh false).head?, plainChar c = false := by
      cases r with
      | nil => simp [DbgItems.compact]
      | cons l' d' r' =>
        rw [DbgItems.compact]
        intro c hc
        rw [Option.mem_def] at hc
        cases hc
        decide
    have := lexes_label sh l h.1 (hd.append hr hh)
    rw [DbgItems.compact, DbgItems.toks]
    have e : (if first = true then [] else ", ".toList) ++ sh.label l ++ d.compact special ++ r.compact special sh false
        = (if first = true then [] else ", ".toList) ++ (sh.label l ++ (d.compact special ++ r.compact special sh false)) := by
      simp only [List.append_assoc]
    rw [e]
    have e2 : (if (false || r.isNil) = true then [] else [DbgTok.comma]) = (if (false || !r.isNil) = true then [DbgTok.comma] else []) := by
      cases r.isNil <;> rfl
    rw [e2] at this
    cases first with
    | true => exact this
    | false => exact .comma (.blank _ (.inl rfl) this)
end

mutual
theorem pretty_lexes (special : Char → Bool) : (d : Dbg) → Readable d → Lexes special (d.pretty special) (d.toks true)
  | .word s, h => by
    rw [Dbg.pretty, Dbg.toks]
    rw [Readable] at h
    exact lexes_word h
  | .text s, _ => by
    rw [Dbg.pretty, Dbg.toks]
    have := Lexes.text s (Lexes.nil (special := special))
    rwa [List.append_nil] at this
  | .group sh name items, h => by
    rw [Dbg.pretty, Dbg.toks]
    rw [Readable] at h
    refine lexes_group sh name items _ _ _ h.1 (fun _ => ?_) (fun hi hs => ?_)
    · constructor
      · rw [List.append_assoc]
        exact lexes_openedP sh ((pretty_items special sh items h.2).1.append (lexes_closedP sh)
          (fun c => (closes_plain sh c).2.1))
      · rw [List.append_assoc]
        cases sh <;> (intro c hc; rw [Option.mem_def] at hc; cases hc; decide)
    · subst hs
      cases items with
      | nil => exact .opening _ (by decide) (.closing _ (by decide) .nil)
      | cons l d r => simp [DbgItems.isNil] at hi

theorem pretty_items (special : Char → Bool) (sh : DbgShape) : (i : DbgItems) → ReadableItems sh i →
    Lexes special (i.pretty special sh) (i.toks true sh) ∧ ∀ c ∈ (i.pretty special sh).head?, plainChar c = false
  | .nil, _ => by
    rw [DbgItems.pretty, DbgItems.toks]
    exact ⟨.nil, by simp⟩
  | .cons l d r, h => by
    rw [ReadableItems] at h
    have hd := pretty_lexes special d h.2.1
    have hr := pretty_items special sh r h.2.2
    have h1 := lexes_label sh l h.1 (hd.append (.comma (.blank '\n' (.inr rfl) .nil)) (by
      intro c hc; rw [Option.mem_def] at hc; cases hc; decide))
    have h2 := (h1.pad true).append hr.1 hr.2
    rw [DbgItems.pretty, DbgItems.toks]
    constructor
    · simpa only [List.append_assoc, Bool.true_or, if_true] using h2
    · cases hx : sh.label l ++ d.pretty special ++ [',', '\n'] with
      | nil => simp at hx
      | cons a b =>
        intro c hc
        rw [padLines] at hc
        rw [Option.mem_def] at hc
        cases hc
        decide
end

/-! ### reading the tokens -/

theorem toks_head (trail : Bool) (d : Dbg) (e : Char) : ∀ rest, (d.toks trail ++ rest).head? ≠ some (.closing e) := by
  intro rest
  cases d with
  | word s => simp [Dbg.toks]
  | text s => simp [Dbg.toks]
  | group sh name items =>
    rw [Dbg.toks]
    split <;> simp

theorem toks_pos (trail : Bool) (d : Dbg) : 1 ≤ (d.toks trail).length := by
  cases d with
  | word s => simp [Dbg.toks]
  | text s => simp [Dbg.toks]
  | group sh name items => simp [Dbg.toks]; omega

mutual
theorem itemN_toks (trail : Bool) : (d : Dbg) → Readable d → ∀ (rest : List DbgTok) (n : Nat),
    (∀ c, rest.head? ≠ some (.opening c)) → 2 * (d.toks trail).length ≤ n → itemN n (d.toks trail ++ rest) = some (d, rest)
  | .word s, _, rest, n, hr, hn => by
    rw [Dbg.toks] at hn ⊢
    cases n with
    | zero => simp at hn
    | succ n =>
      cases rest with
      | nil => simp [itemN]
      | cons t rest =>
        cases t with
        | opening c => exact absurd rfl (hr c)
        | _ => simp [itemN]
  | .text s, _, rest, n, hr, hn => by
    rw [Dbg.toks] at hn ⊢
    cases n with
    | zero => simp at hn
    | succ n => simp [itemN]
  | .group sh name items, h, rest, n, hr, hn => by
    rw [Readable] at h
    rw [Dbg.toks] at hn ⊢
    cases n with
    | zero => simp at hn
    | succ n =>
      have hi := itemsN_toks trail sh items h.2 rest n (by simp at hn; omega)
      have hn1 := h.1
      cases sh with
      | tuple =>
        simp only [DbgShape.openChar, DbgShape.closeChar] at hi ⊢
        show itemN (n + 1) (.word name :: .opening '(' :: (items.toks trail .tuple ++ [.closing ')'] ++ rest)) = _
        rw [itemN, if_pos rfl, List.append_assoc]
        exact congrArg (Option.map _) hi
      | struct =>
        simp only [DbgShape.openChar, DbgShape.closeChar] at hi ⊢
        show itemN (n + 1) (.word name :: .opening '{' :: (items.toks trail .struct ++ [.closing '}'] ++ rest)) = _
        rw [itemN, if_neg (by decide), if_pos rfl, List.append_assoc]
        exact congrArg (Option.map _) hi
      | list =>
        simp only [DbgShape.openChar, DbgShape.closeChar, if_true] at hi hn1 ⊢
        show itemN (n + 1) (.opening '[' :: (items.toks trail .list ++ [.closing ']'] ++ rest)) = _
        rw [itemN, if_pos rfl, List.append_assoc, hn1]
        exact congrArg (Option.map _) hi

theorem itemsN_toks (trail : Bool) (sh : DbgShape) : (i : DbgItems) → ReadableItems sh i → ∀ (rest : List DbgTok) (n : Nat),
    2 * (i.toks trail sh).length + 1 ≤ n →
    itemsN n sh.closeChar (i.toks trail sh ++ ([.closing sh.closeChar] ++ rest)) = some (i, rest)
  | .nil, _, rest, n, hn => by
    cases n with
    | zero => simp at hn
    | succ n => simp [DbgItems.toks, itemsN]
  | .cons l d r, h, rest, n, hn => by
    rw [ReadableItems] at h
    cases n with
    | zero => simp at hn
    | succ n =>
      rw [DbgItems.toks] at hn ⊢
      have hp := toks_pos trail d
      simp only [List.length_append] at hn
      have hd := fun rest hr => itemN_toks trail d h.2.1 rest n hr (by omega)
      have hr := itemsN_toks trail sh r h.2.2 rest n (by omega)
      have hlast : (if (trail || !r.isNil) = true then [DbgTok.comma] else []) = [.comma] ∨
          ((if (trail || !r.isNil) = true then [DbgTok.comma] else []) = [] ∧ r = .nil) := by
        cases r with
        | nil => cases trail <;> simp [DbgItems.isNil]
        | cons _ _ _ => simp [DbgItems.isNil]
      have hlab : Spec.labelAt sh.closeChar ((if sh = .struct then [DbgTok.word l, .colon] else []) ++ (d.toks trail ++
          ((if (trail || !r.isNil) = true then [DbgTok.comma] else []) ++ r.toks trail sh)) ++ ([.closing sh.closeChar] ++ rest))
          = some (l, d.toks trail ++ ((if (trail || !r.isNil) = true then [DbgTok.comma] else []) ++
            (r.toks trail sh ++ ([.closing sh.closeChar] ++ rest)))) := by
        have hl := h.1
        cases sh with
        | struct => simp [Spec.labelAt, DbgShape.closeChar]
        | tuple => simp only [reduceCtorEq, if_false] at hl; subst hl; simp [Spec.labelAt, DbgShape.closeChar]
        | list => simp only [reduceCtorEq, if_false] at hl; subst hl; simp [Spec.labelAt, DbgShape.closeChar]
      have hne : ((if sh = DbgShape.struct then [DbgTok.word l, .colon] else []) ++ (d.toks trail ++
          ((if (trail || !r.isNil) = true then [DbgTok.comma] else []) ++ r.toks trail sh))
            ++ ([DbgTok.closing sh.closeChar] ++ rest)).head? ≠ some (DbgTok.closing sh.closeChar) := by
        by_cases hs : sh = .struct
        · rw [if_pos hs]; simp
        · rw [if_neg hs, List.nil_append, List.append_assoc]
          exact toks_head trail d _ _
      rw [itemsN, if_neg hne, hlab]
      dsimp only [Option.bind_some]
      rcases hlast with e | ⟨e, e'⟩
      · rw [e, hd _ (by simp)]
        dsimp only [Option.bind_some, List.cons_append, List.nil_append, Spec.afterEntry]
        simp only [List.cons_append, List.nil_append] at hr
        rw [if_pos rfl, hr]
        rfl
      · subst e'
        rw [e, hd _ (by simp [DbgItems.toks])]
        simp [DbgItems.toks, Spec.afterEntry]
end

theorem readTree_lexes {special : Char → Bool} {s : Str} (trail : Bool) (d : Dbg) (hd : Readable d)
    (h : Lexes special s (d.toks trail)) : readTree s = some d := by
  unfold readTree lexAll
  rw [lexN_of_lexes h _ (Nat.le_refl _)]
  have := itemN_toks trail d hd [] (2 * (d.toks trail).length + 1) (by simp) (by omega)
  rw [List.append_nil] at this
  dsimp only [Option.bind_some]
  rw [this]
  rfl

end Verif
