import Verif.Model.Text

/-!
# Model of `OptionsList::readnexttoken` (`/repo/src/Common/IpOptionsList.cpp:855-901`)

The input stream is the list of the characters not yet read; `is.get()` on the empty list sets end-of-file, after which
`is.eof()` stays true.  The value of `c` after end-of-file is irrelevant because every use is guarded by `is.eof()` or
compares with `"` (which `(char)EOF` is not).
-/

namespace Verif.Tok
open Text

/-- `is.ignore(n, '\n')`: skip at most `n` characters, up to and including the first newline. -/
def ignoreLine : Nat → Str → Str
  | 0, s => s
  | _ + 1, [] => []
  | n + 1, c :: cs => if c = '\n' then cs else ignoreLine n cs

theorem ignoreLine_length (n : Nat) (s : Str) : (ignoreLine n s).length ≤ s.length := by
  induction n generalizing s with
  | zero => simp [ignoreLine]
  | succ n ih =>
    cases s with
    | nil => simp [ignoreLine]
    | cons c cs =>
      simp only [ignoreLine]
      split
      · simp
      · exact Nat.le_succ_of_le (ih cs)

/-- The limit used for comments (line 868). -/
def commentLimit : Nat := 10000000

/-- Skipping blanks and comments (lines 861-872): first relevant character and the rest; `none` = end of file. -/
def skip (s : Str) : Option (Char × Str) :=
  match s with
  | [] => none
  | c :: cs =>
    if isSpace c then skip cs
    else if c = '#' then skip (ignoreLine commentLimit cs)
    else some (c, cs)
termination_by s.length
decreasing_by
  · simp
  · have := ignoreLine_length commentLimit cs
    simp; omega

/-- The reading loop (lines 888-898), entered with current character `c`.  Result: `!inside_quotes` at the end, the token and
the unread input. -/
def readLoop (inside : Bool) (acc : Str) (c : Char) (rest : Str) : Bool × Str × Str :=
  if inside || !isSpace c then
    match rest with
    | [] => (!inside, acc ++ [c], [])
    | c' :: rest' =>
      if inside && c' == '"' then
        match rest' with
        | [] => (true, acc ++ [c], [])
        | c'' :: rest'' => readLoop false (acc ++ [c]) c'' rest''
      else readLoop inside (acc ++ [c]) c' rest'
  else (true, acc, rest)
termination_by rest.length

/-- `OptionsList::readnexttoken` (lines 855-901): `none` if it returns false. -/
def readNextToken (s : Str) : Option (Str × Str) :=
  match skip s with
  | none => none
  | some (c, rest) =>
    if c = '"' then
      match rest with
      | [] => none
      | c' :: rest' =>
        match readLoop true [] c' rest' with
        | (true, tok, r) => some (tok, r)
        | (false, _, _) => none
    else
      match readLoop false [] c rest with
      | (true, tok, r) => some (tok, r)
      | (false, _, _) => none

theorem skip_length (s : Str) (c : Char) (r : Str) (h : skip s = some (c, r)) : r.length < s.length := by
  induction s using skip.induct with
  | case1 => simp [skip] at h
  | case2 c' cs hs ih =>
    rw [skip] at h; simp only [hs, if_true] at h
    have := ih h; simp; omega
  | case3 cs hs ih =>
    rw [skip] at h; simp only [hs, if_true] at h
    have := ih (by simpa using h)
    have h2 := ignoreLine_length commentLimit cs
    simp; omega
  | case4 c' cs hs hc =>
    rw [skip] at h
    simp [hs, hc] at h
    simp [← h.2]

theorem readLoop_length (inside : Bool) (acc : Str) (c : Char) (rest : Str) :
    (readLoop inside acc c rest).2.2.length ≤ rest.length := by
  fun_induction readLoop inside acc c rest <;> simp_all <;> omega

theorem readNextToken_length (s tok r : Str) (h : readNextToken s = some (tok, r)) : r.length < s.length := by
  unfold readNextToken at h
  split at h
  · simp at h
  · rename_i c rest hs
    have h1 := skip_length _ _ _ hs
    split at h
    · split at h
      · simp at h
      · rename_i c' rest'
        have h2 := readLoop_length true [] c' rest'
        split at h
        · rename_i heq
          rw [heq] at h2
          simp only [Option.some.injEq, Prod.mk.injEq] at h
          rw [← h.2]; simp at h1 h2; omega
        · simp at h
    · have h2 := readLoop_length false [] c rest
      split at h
      · rename_i heq
        rw [heq] at h2
        simp only [Option.some.injEq, Prod.mk.injEq] at h
        rw [← h.2]; simp at h2; omega
      · simp at h

/-- All tokens of an input, and what remains when `readnexttoken` first returns false is dropped. -/
def tokens (s : Str) : List Str :=
  match h : readNextToken s with
  | none => []
  | some (t, r) =>
    have := readNextToken_length s t r h
    t :: tokens r
termination_by s.length

end Verif.Tok
