/-
sudachipy/plugin/input_text/default_input_text_plugin.py, sudachipy/plugin/input_text/prolongedsoundmark.py
-/
import Verif.Model.InputText
namespace Sudachi

/-- default_input_text_plugin.py:24-27: `ignore_normalize_set`, `key_lengths`, `replace_char_map`. -/
structure RewriteTable where
  ignore : List PStr
  keyLengths : List (Nat × Nat)
  replaceMap : List (PStr × PStr)
  deriving DecidableEq, Repr

/-- `dict.get(k)`: the value stored last (entries are added at the front). -/
def dictGet {α β : Type} [DecidableEq α] : List (α × β) → α → Option β
  | [], _ => none
  | (k, v) :: rest, x => if k = x then some v else dictGet rest x

/-- `key_lengths.get(c, 0)`. -/
def RewriteTable.keyLength (tb : RewriteTable) (c : Nat) : Nat :=
  match dictGet tb.keyLengths c with
  | some l => l
  | none => 0

/-- default_input_text_plugin.py:80-100: one line of rewrite.def, already split into columns; comment and blank
lines are dropped before.  (`str.split()` never yields an empty column, so `cols[0][0]` exists; an empty first
column, impossible here, would raise `IndexError`.) -/
def readRewriteLine (tb : RewriteTable) (cols : List PStr) : Res RewriteTable :=
  match cols with
  | [key] => if key.length ≠ 1 then .error .runtime else .ok { tb with ignore := key :: tb.ignore }
  | [key, value] =>
    match dictGet tb.replaceMap key with
    | some _ => .error .runtime
    | none =>
      match key with
      | [] => .error .index
      | c :: _ =>
        .ok { tb with
          keyLengths := if tb.keyLength c < key.length then (c, key.length) :: tb.keyLengths else tb.keyLengths
          replaceMap := (key, value) :: tb.replaceMap }
  | _ => .error .runtime

/-- default_input_text_plugin.py:78-100 `read_rewrite_lists` on the non-comment lines, split into columns. -/
def readRewriteLines (tb : RewriteTable) : List (List PStr) → Res RewriteTable
  | [] => .ok tb
  | cols :: rest => do
    let tb' ← readRewriteLine tb cols
    readRewriteLines tb' rest

/-- default_input_text_plugin.py:25-27. -/
def RewriteTable.empty : RewriteTable := ⟨[], [], []⟩

/-- default_input_text_plugin.py:52-54: `for l in range(max_length, 0, -1)`: the first length `l` whose key has a
(non-empty, hence true) replacement. -/
def findReplace (tb : RewriteTable) (rest : PStr) : Nat → Option (Nat × PStr)
  | 0 => none
  | l + 1 =>
    match dictGet tb.replaceMap (rest.take (l + 1)) with
    | some r => if r ≠ [] then some (l + 1, r) else findReplace tb rest l
    | none => findReplace tb rest l

/-- default_input_text_plugin.py:41-76: the `while True` loop at character `i` with the accumulated `offset`
(fuel `len(text) + 1` suffices).  `lower` is `str.lower`, `nfkc` is `unicodedata.normalize("NFKC", ·)`. -/
def defaultLoop (tb : RewriteTable) (lower nfkc : PStr → PStr) (text : PStr) :
    Nat → Nat → Int → Builder → Res Builder
  | 0, _, _, _ => .error .outOfFuel
  | fuel + 1, i, offset, bd =>
    match text[i]? with
    | none => .ok bd                                                         -- line 43-44
    | some original =>
      let maxLength := min (tb.keyLength original) (text.length - i)         -- line 51
      match findReplace tb (text.drop i) maxLength with
      | some (l, repl) => do                                                 -- line 54-59
        let bd' ← bd.replace (i + offset) (i + l + offset) repl
        defaultLoop tb lower nfkc text fuel (i + l) (offset + ((repl.length : Int) - l)) bd'
      | none =>
        let low := lower [original]                                          -- line 65
        if low ∈ tb.ignore then                                              -- line 66
          if [original] = low then defaultLoop tb lower nfkc text fuel (i + 1) offset bd   -- line 67-68
          else do                                                            -- line 69, 74-76
            let bd' ← bd.replace (i + offset) (i + 1 + offset) low
            defaultLoop tb lower nfkc text fuel (i + 1) (offset + ((low.length : Int) - 1)) bd'
        else
          let repl := nfkc low                                               -- line 73
          if [original] ≠ repl then do                                       -- line 75-76
            let bd' ← bd.replace (i + offset) (i + 1 + offset) repl
            defaultLoop tb lower nfkc text fuel (i + 1) (offset + ((repl.length : Int) - 1)) bd'
          else defaultLoop tb lower nfkc text fuel (i + 1) (offset + ((repl.length : Int) - 1)) bd

/-- default_input_text_plugin.py:35-76 `rewrite`. -/
def defaultRewrite (tb : RewriteTable) (lower nfkc : PStr → PStr) (bd : Builder) : Res Builder :=
  defaultLoop tb lower nfkc bd.modified (bd.modified.length + 1) 0 0 bd

/-- prolongedsoundmark.py:39-48: the `for i in range(n)` loop over the remaining characters `cs` from index `i`;
`start` is `some m_start_idx` while `is_psm`.  Returns the builder, `offset` and `start` after the loop. -/
def psmLoop (marks : List Nat) (sym : PStr) : PStr → Nat → Int → Option Nat → Builder →
    Res (Builder × Int × Option Nat)
  | [], _, offset, start, bd => .ok (bd, offset, start)
  | c :: cs, i, offset, start, bd =>
    match start with
    | none =>
      if c ∈ marks then psmLoop marks sym cs (i + 1) offset (some i) bd     -- line 41-43
      else psmLoop marks sym cs (i + 1) offset none bd
    | some m =>
      if c ∈ marks then psmLoop marks sym cs (i + 1) offset (some m) bd
      else                                                                   -- line 44-48
        if (i : Int) - m > 1 then do
          let bd' ← bd.replace (m - offset) (i - offset) sym
          psmLoop marks sym cs (i + 1) (offset + ((i : Int) - m - 1)) none bd'
        else psmLoop marks sym cs (i + 1) offset none bd

/-- prolongedsoundmark.py:33-50 `rewrite`. -/
def psmRewrite (marks : List Nat) (sym : PStr) (bd : Builder) : Res Builder := do
  let n := bd.modified.length
  let (bd', offset, start) ← psmLoop marks sym bd.modified 0 0 none bd
  match start with
  | some m => if (n : Int) - m > 1 then bd'.replace (m - offset) (n - offset) sym else pure bd'   -- line 49-50
  | none => pure bd'

/-- The input text plugins (plugin/input_text/utils.py; user-written plugins are outside the model). -/
inductive InputPlugin
  | default (tb : RewriteTable)
  | psm (marks : List Nat) (sym : PStr)
  deriving DecidableEq, Repr

/-- `plugin.rewrite(builder)`. -/
def InputPlugin.rewrite (lower nfkc : PStr → PStr) : InputPlugin → Builder → Res Builder
  | .default tb, bd => defaultRewrite tb lower nfkc bd
  | .psm marks sym, bd => psmRewrite marks sym bd

end Sudachi
