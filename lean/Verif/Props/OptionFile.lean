import Verif.Proof.OptionsRefine

/-!
# C06 — reading option files

Specification: an option file is written from *items*: plain or quoted tokens, and separators (blank characters and
comment lines `# ... newline`).  Reading must return exactly the tokens.
-/

namespace Verif.Tok
open Text

/-- A token as written in a file. -/
inductive Word where
  | plain (s : Str)
  | quoted (s : Str)

/-- The text meant by a token. -/
def Word.text : Word → Str
  | .plain s => s
  | .quoted s => s

/-- How a token is written. -/
def Word.render : Word → Str
  | .plain s => s
  | .quoted s => '"' :: (s ++ ['"'])

/-- A plain token is not empty, has no blanks and does not start with `#` or `"`; a quoted token is not empty and contains no
quotation mark (blanks, `#` and newlines are allowed in it). -/
def Word.Ok : Word → Prop
  | .plain s => s ≠ [] ∧ (∀ c ∈ s, isSpace c = false) ∧ s.head? ≠ some '#' ∧ s.head? ≠ some '"'
  | .quoted s => s ≠ [] ∧ '"' ∉ s

/-- A separator: a blank character or a comment up to the end of the line. -/
inductive Sep where
  | blank (c : Char)
  | comment (text : Str)

/-- How a separator is written. -/
def Sep.render : Sep → Str
  | .blank c => [c]
  | .comment t => '#' :: (t ++ ['\n'])

/-- Blanks are blank; a comment is a single line of at most 10^7 characters. -/
def Sep.Ok : Sep → Prop
  | .blank c => isSpace c = true
  | .comment t => '\n' ∉ t ∧ t.length ≤ 10000000

/-- Text of a sequence of separators. -/
def renderSeps (l : List Sep) : Str := l.flatMap Sep.render

/-- Text of a sequence of tokens, each followed by a blank character and further separators. -/
def renderWords : List (Word × Char × List Sep) → Str
  | [] => []
  | (w, c, seps) :: rest => w.render ++ c :: (renderSeps seps ++ renderWords rest)

/-- Well-formed token/separator sequence. -/
def WordsOk (l : List (Word × Char × List Sep)) : Prop :=
  ∀ p ∈ l, p.1.Ok ∧ isSpace p.2.1 = true ∧ ∀ s ∈ p.2.2, s.Ok

private theorem skip_cons (c : Char) (cs : Str) : skip (c :: cs) =
    if isSpace c then skip cs else if c = '#' then skip (ignoreLine commentLimit cs) else some (c, cs) := by
  rw [skip]

private theorem ignoreLine_comment (n : Nat) (t r : Str) (h : '\n' ∉ t) (hl : t.length < n) :
    ignoreLine n (t ++ '\n' :: r) = r := by
  induction t generalizing n with
  | nil => obtain ⟨k, rfl⟩ : ∃ k, n = k + 1 := ⟨n - 1, by simp at hl; omega⟩
           simp [ignoreLine]
  | cons c t ih =>
    obtain ⟨k, rfl⟩ : ∃ k, n = k + 1 := ⟨n - 1, by simp at hl; omega⟩
    have hc : ¬ c = '\n' := by rintro rfl; simp at h
    simp only [List.cons_append, ignoreLine, hc, if_false]
    exact ih k (fun hh => h (by simp [hh])) (by simp at hl; omega)

private theorem ignoreLine_exact (t r : Str) (h : '\n' ∉ t) : ignoreLine t.length (t ++ '\n' :: r) = '\n' :: r := by
  induction t with
  | nil => simp [ignoreLine]
  | cons c t ih =>
    have hc : ¬ c = '\n' := by rintro rfl; simp at h
    simp only [List.cons_append, List.length_cons, ignoreLine, hc, if_false]
    exact ih (fun hh => h (by simp [hh]))

private theorem skip_sep (s : Sep) (h : s.Ok) (r : Str) : skip (s.render ++ r) = skip r := by
  cases s with
  | blank c => simp only [Sep.render, List.singleton_append]; rw [skip_cons]; simp [show isSpace c = true from h]
  | comment t =>
    obtain ⟨h1, h2⟩ := h
    have hns : isSpace '#' = false := by decide
    simp only [Sep.render, List.cons_append, List.append_assoc, List.singleton_append]
    rw [skip_cons, hns]
    simp only [Bool.false_eq_true, if_false, if_true]
    by_cases hl : t.length < commentLimit
    · simp only [List.nil_append]; rw [ignoreLine_comment _ _ _ h1 hl]
    · have : t.length = commentLimit := by unfold commentLimit at hl ⊢; omega
      simp only [List.nil_append]; rw [← this, ignoreLine_exact _ _ h1, skip_cons]
      simp [show isSpace '\n' = true from by decide]

private theorem skip_seps (l : List Sep) (h : ∀ s ∈ l, s.Ok) (r : Str) : skip (renderSeps l ++ r) = skip r := by
  induction l with
  | nil => rfl
  | cons s l ih =>
    have : renderSeps (s :: l) ++ r = s.render ++ (renderSeps l ++ r) := by
      simp [renderSeps, List.flatMap_cons]
    rw [this, skip_sep s (h s (by simp)), ih (fun s' hs' => h s' (by simp [hs']))]

/-- Reading a plain word followed by `tail`, which is empty or starts with a blank. -/
private theorem readLoop_plain (s : Str) (hs : ∀ c ∈ s, isSpace c = false) (c : Char) (hc : isSpace c = false) (acc : Str) :
    (∀ b r, isSpace b = true → readLoop false acc c (s ++ b :: r) = (true, acc ++ c :: s, r)) ∧
    readLoop false acc c s = (true, acc ++ c :: s, []) := by
  induction s generalizing c acc with
  | nil =>
    refine ⟨fun b r hb => ?_, ?_⟩
    · rw [readLoop.eq_def]; simp [hc]; rw [readLoop.eq_def]; simp [hb]
    · rw [readLoop.eq_def]; simp [hc]
  | cons d s ih =>
    have hd := hs d (by simp)
    obtain ⟨ih1, ih2⟩ := ih (fun c' hc' => hs c' (by simp [hc'])) d hd (acc ++ [c])
    refine ⟨fun b r hb => ?_, ?_⟩
    · rw [readLoop.eq_def]; simp [hc]
      rw [ih1 b r hb]; simp
    · rw [readLoop.eq_def]; simp [hc]
      rw [ih2]; simp

/-- Reading the inside of a quoted word. -/
private theorem readLoop_quoted (s : Str) (hs : '"' ∉ s) (c : Char) (acc : Str) :
    (∀ b r, isSpace b = true → readLoop true acc c (s ++ '"' :: b :: r) = (true, acc ++ c :: s, r)) ∧
    readLoop true acc c (s ++ ['"']) = (true, acc ++ c :: s, []) := by
  induction s generalizing c acc with
  | nil =>
    refine ⟨fun b r hb => ?_, ?_⟩
    · rw [readLoop.eq_def]; simp; rw [readLoop.eq_def]; simp [hb]
    · rw [readLoop.eq_def]; simp
  | cons d s ih =>
    have hd : ¬ d = '"' := by rintro rfl; simp at hs
    obtain ⟨ih1, ih2⟩ := ih (fun h => hs (by simp [h])) d (acc ++ [c])
    refine ⟨fun b r hb => ?_, ?_⟩
    · rw [readLoop.eq_def]; simp [hd]
      rw [ih1 b r hb]; simp
    · rw [readLoop.eq_def]; simp [hd]
      rw [ih2]; simp

private theorem read_word (w : Word) (hw : w.Ok) :
    (∀ b r, isSpace b = true → readNextToken (w.render ++ b :: r) = some (w.text, r)) ∧
    readNextToken w.render = some (w.text, []) := by
  cases w with
  | plain s =>
    obtain ⟨h1, h2, h3, h4⟩ := hw
    cases s with
    | nil => exact absurd rfl h1
    | cons c s =>
      have hc := h2 c (by simp)
      have hh : ¬ c = '#' := by rintro rfl; simp at h3
      have hq : ¬ c = '"' := by rintro rfl; simp at h4
      obtain ⟨r1, r2⟩ := readLoop_plain s (fun c' hc' => h2 c' (by simp [hc'])) c hc []
      refine ⟨fun b r hb => ?_, ?_⟩
      · simp only [Word.render, Word.text, readNextToken, List.cons_append]
        rw [skip_cons]
        simp [hc, hh, hq, r1 b r hb]
      · simp only [Word.render, Word.text, readNextToken]
        rw [skip_cons]
        simp [hc, hh, hq, r2]
  | quoted s =>
    obtain ⟨h1, h2⟩ := hw
    cases s with
    | nil => exact absurd rfl h1
    | cons c s =>
      obtain ⟨r1, r2⟩ := readLoop_quoted s (fun h => h2 (by simp [h])) c []
      have hns : isSpace '"' = false := by decide
      refine ⟨fun b r hb => ?_, ?_⟩
      · simp only [Word.render, Word.text, readNextToken, List.cons_append, List.append_assoc, List.nil_append]
        rw [skip_cons]
        simp [hns, r1 b r hb]
      · simp only [Word.render, Word.text, readNextToken, List.cons_append]
        rw [skip_cons]
        simp [hns, r2]

private theorem readNext_seps (l : List Sep) (h : ∀ s ∈ l, s.Ok) (r : Str) :
    readNextToken (renderSeps l ++ r) = readNextToken r := by
  unfold readNextToken; rw [skip_seps l h]

private theorem tokens_seps (l : List Sep) (h : ∀ s ∈ l, s.Ok) (r : Str) : tokens (renderSeps l ++ r) = tokens r := by
  rw [Opt.tokens_eq, Opt.tokens_eq r, readNext_seps l h]

/-- **C06 (round trip).** A file consisting of separators and well-formed tokens, each followed by a blank (the last one
possibly by the end of the file), is read back as exactly these tokens. -/
theorem option_file_roundtrip (lead : List Sep) (words : List (Word × Char × List Sep)) (last : Option Word)
    (hlead : ∀ s ∈ lead, s.Ok) (hw : WordsOk words) (hlast : ∀ w ∈ last, w.Ok) :
    tokens (renderSeps lead ++ renderWords words ++ (last.map Word.render).getD []) =
      words.map (fun p => p.1.text) ++ (last.map Word.text).toList := by
  rw [List.append_assoc, tokens_seps lead hlead]
  induction words with
  | nil =>
    cases last with
    | none => simp only [renderWords]; rw [Opt.tokens_eq]; simp [readNextToken, skip]
    | some w =>
      have := (read_word w (hlast w rfl)).2
      simp only [renderWords, List.nil_append, Option.map_some, Option.getD_some]
      rw [Opt.tokens_eq, this]
      simp only [List.map_nil, List.nil_append, Option.toList_some]
      rw [Opt.tokens_eq]; simp [readNextToken, skip]
  | cons p ps ih =>
    obtain ⟨w, c, seps⟩ := p
    obtain ⟨h1, h2, h3⟩ := hw (w, c, seps) (by simp)
    have := (read_word w h1).1 c (renderSeps seps ++ (renderWords ps ++ (last.map Word.render).getD [])) h2
    have e : renderWords ((w, c, seps) :: ps) ++ (last.map Word.render).getD [] =
        w.render ++ c :: (renderSeps seps ++ (renderWords ps ++ (last.map Word.render).getD [])) := by
      simp [renderWords]
    rw [e, Opt.tokens_eq, this]
    simp only []
    rw [tokens_seps seps h3, ih (fun p' hp' => hw p' (by simp [hp']))]
    simp

/-- Every successful read of a token consumes input, so that reading a file of any content terminates and never goes past
its end: the unread rest is a proper suffix. -/
theorem token_read_consumes (s tok rest : Str) (h : readNextToken s = some (tok, rest)) :
    rest.length < s.length ∧ rest <:+ s := by
  refine ⟨readNextToken_length s tok rest h, ?_⟩
  have hign : ∀ (n : Nat) (s : Str), ignoreLine n s <:+ s := by
    intro n
    induction n with
    | zero => intro s; exact List.suffix_rfl
    | succ n ih =>
      intro s
      cases s with
      | nil => exact List.suffix_rfl
      | cons c cs =>
        simp only [ignoreLine]
        split
        · exact List.suffix_cons _ _
        · exact (ih cs).trans (List.suffix_cons _ _)
  have hskip : ∀ (s : Str) (c : Char) (r : Str), skip s = some (c, r) → r <:+ s := by
    intro s
    induction hn : s.length using Nat.strong_induction_on generalizing s with
    | _ n ih =>
      intro c r hs
      cases s with
      | nil => simp [skip] at hs
      | cons a as =>
        rw [skip_cons] at hs
        simp only [List.length_cons] at hn
        split at hs
        · exact (ih as.length (by omega) as rfl c r hs).trans (List.suffix_cons _ _)
        · split at hs
          · have hl := ignoreLine_length commentLimit as
            exact ((ih _ (by omega) _ rfl c r hs).trans (hign commentLimit as)).trans (List.suffix_cons _ _)
          · simp only [Option.some.injEq, Prod.mk.injEq] at hs
            rw [← hs.2]; exact List.suffix_cons _ _
  have hloop : ∀ (inside : Bool) (acc : Str) (c : Char) (r : Str), (readLoop inside acc c r).2.2 <:+ r := by
    intro inside acc c r
    fun_induction readLoop inside acc c r
    · exact List.suffix_rfl
    · exact List.nil_suffix
    · rename_i ih; exact ih.trans ((List.suffix_cons _ _).trans (List.suffix_cons _ _))
    · rename_i ih; exact ih.trans (List.suffix_cons _ _)
    · exact List.suffix_rfl
  unfold readNextToken at h
  split at h
  · simp at h
  · rename_i c rest' hs
    have h1 := hskip _ _ _ hs
    split at h
    · split at h
      · simp at h
      · rename_i c' rest''
        have h2 := hloop true [] c' rest''
        split at h
        · rename_i heq
          rw [heq] at h2
          simp only [Option.some.injEq, Prod.mk.injEq] at h
          rw [← h.2]; exact (h2.trans (List.suffix_cons _ _)).trans h1
        · simp at h
    · have h2 := hloop false [] c rest'
      split at h
      · rename_i heq
        rw [heq] at h2
        simp only [Option.some.injEq, Prod.mk.injEq] at h
        rw [← h.2]; exact h2.trans h1
      · simp at h

end Verif.Tok

namespace Verif.Opt
open Text

/-- Expected answer of reading a token list: `none` = exception at an invalid pair, `some false` = a tag without value. -/
noncomputable def fileOutcome (env : Env) : List Str → Option Bool
  | [] => some true
  | [_] => some false
  | tag :: value :: rest =>
    match fileAction env tag value with
    | .error => none
    | _ => fileOutcome env rest

/-- **C06 (pairs).** Reading a file processes the tokens in pairs: the answer is an exception at the first invalid pair, "false"
if the last tag has no value, "true" otherwise; and the stored options are those of the pairs before. -/
theorem option_file_pairs (env : Env) (m : Store) (f : Str) (clob : Bool) :
    (readFromStream env m f clob).1 = fileOutcome env (Tok.tokens f) ∧
    view (readFromStream env m f clob).2 = Table.readPairs env clob (view m) (Tok.tokens f) := by
  refine ⟨?_, read_table env clob f m⟩
  induction hn : f.length using Nat.strong_induction_on generalizing f m with
  | _ n ih =>
    rw [readFromStream_eq, tokens_eq]
    cases h1 : Tok.readNextToken f with
    | none => rfl
    | some p1 =>
      obtain ⟨tag, r1⟩ := p1
      simp only []
      rw [tokens_eq r1]
      cases h2 : Tok.readNextToken r1 with
      | none => rfl
      | some p2 =>
        obtain ⟨value, r2⟩ := p2
        have l1 := Tok.readNextToken_length _ _ _ h1
        have l2 := Tok.readNextToken_length _ _ _ h2
        simp only [fileOutcome]
        rcases setFromText_table env m tag value clob with ⟨m', h3, h4, h5⟩ | ⟨m', h3, h4, h5⟩ | ⟨m', text, h3, h4, h5⟩
        · rw [h3, h4]
        · rw [h3, h4]; exact ih r2.length (by omega) m' r2 rfl
        · rw [h3, h4]; exact ih r2.length (by omega) m' r2 rfl

/-- **Disagreement.** An empty quoted token is not read as the empty string: its closing quotation mark becomes part of a
token that extends to the next quotation mark. -/
theorem empty_quoted_token_misread :
    Tok.tokens "a \"\" b \"c\" d".toList = ["a".toList, "\" b c\"".toList, "d".toList] := by
  rw [tokens_eq, show Tok.readNextToken "a \"\" b \"c\" d".toList = some ("a".toList, "\"\" b \"c\" d".toList)
    from by decide +kernel]
  simp only []
  rw [tokens_eq, show Tok.readNextToken "\"\" b \"c\" d".toList = some ("\" b c\"".toList, "d".toList) from by decide +kernel]
  simp only []
  rw [tokens_eq, show Tok.readNextToken "d".toList = some ("d".toList, []) from by decide +kernel]
  simp only []
  rw [tokens_eq, show Tok.readNextToken [] = none from by decide +kernel]

/-- **Disagreement.** A file that ends inside a quoted tag is reported as read successfully; the tag is silently dropped. -/
theorem unterminated_tag_is_silent (env : Env) (m : Store) :
    readFromStream env m "\"tol 1e-3 ".toList true = (some true, m) := by
  rw [readFromStream_eq, show Tok.readNextToken "\"tol 1e-3 ".toList = none from by decide +kernel]

/-- non-vacuity: a file with a comment, a quoted token with blanks and `#`, and a final token at the end of file. -/
example : (∀ s ∈ [Tok.Sep.comment "x y".toList, .blank '\n'], s.Ok) ∧
    Tok.WordsOk [(.plain "tol".toList, ' ', [.blank '\t']), (.quoted "a # b".toList, '\n', [.comment [], .blank ' '])] ∧
    (Tok.Word.plain "1\"e".toList).Ok := by
  refine ⟨?_, ?_, ?_⟩
  · intro s hs; simp only [List.mem_cons, List.not_mem_nil, or_false] at hs
    rcases hs with rfl | rfl
    · exact ⟨by decide, by decide⟩
    · show isSpace '\n' = true; decide
  · intro p hp; simp only [List.mem_cons, List.not_mem_nil, or_false] at hp
    rcases hp with rfl | rfl
    · refine ⟨⟨by decide, by decide, by decide, by decide⟩, by decide, ?_⟩
      intro s hs; simp only [List.mem_cons, List.not_mem_nil, or_false] at hs; subst hs
      show isSpace '\t' = true; decide
    · refine ⟨⟨by decide, by decide⟩, by decide, ?_⟩
      intro s hs; simp only [List.mem_cons, List.not_mem_nil, or_false] at hs
      rcases hs with rfl | rfl
      · exact ⟨by decide, by decide⟩
      · show isSpace ' ' = true; decide
  · exact ⟨by decide, by decide, by decide, by decide⟩

end Verif.Opt
