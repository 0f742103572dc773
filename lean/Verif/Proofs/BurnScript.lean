import Verif.Proofs.Base
import Verif.Spec.BurnScript

/-! Lemmas about the script lexer and parser. -/

namespace BurnFm
open Spec

/-! ### Lexer -/

theorem blex_args_char {c : Char} {k : Nat} {b : Bool} {buf : Str} {acc : List ScriptTok} {rest : Str}
    (h1 : c ≠ '(') (h2 : c ≠ ')') (h3 : c ≠ ',' ∨ 0 < k) (h4 : c ≠ ' ' ∨ b = true ∨ buf ≠ []) :
    scriptLex (.args k b) buf acc (c :: rest) =
      scriptLex (.args k (b != (c == '"'))) (buf ++ [c]) acc rest := by
  conv => lhs; unfold scriptLex
  dsimp only
  by_cases hs : c = ' '
  · subst hs
    rw [if_pos rfl, if_neg]
    · rw [show ((' ' : Char) == '"') = false from rfl, Bool.bne_false]
    · rcases h4 with h | h | h
      · exact absurd rfl h
      · simp [h]
      · simp [h]
  · rw [if_neg hs]
    by_cases hq : c = '"'
    · subst hq
      rw [if_pos rfl, show (('"' : Char) == '"') = true from rfl, Bool.bne_true]
    · rw [if_neg hq, if_neg h2, if_neg h1, show (c == '"') = false from beq_false_of_ne hq, Bool.bne_false]
      by_cases hc : c = ','
      · rw [if_pos hc]
        obtain ⟨k, rfl⟩ : ∃ j, k = j + 1 := ⟨k - 1, by have := h3.resolve_left (fun h => h hc); omega⟩
        rfl
      · rw [if_neg hc]

theorem blex_args_open {k : Nat} {b : Bool} {buf : Str} {acc : List ScriptTok} {rest : Str} :
    scriptLex (.args k b) buf acc ('(' :: rest) = scriptLex (.args (k + 1) b) (buf ++ ['(']) acc rest := by
  conv => lhs; unfold scriptLex
  rfl

theorem blex_args_close {k : Nat} {b : Bool} {buf : Str} {acc : List ScriptTok} {rest : Str} :
    scriptLex (.args (k + 1) b) buf acc (')' :: rest) = scriptLex (.args k b) (buf ++ [')']) acc rest := by
  conv => lhs; unfold scriptLex
  rfl

/-- Whether the number of quotes is odd. -/
def oddQuotes (s : Str) : Bool := s.count '"' % 2 == 1

theorem oddQuotes_cons (c : Char) (s : Str) : oddQuotes (c :: s) = ((c == '"') != oddQuotes s) := by
  unfold oddQuotes
  rw [List.count_cons]
  by_cases h : c == '"'
  · rw [h, if_pos rfl]
    rcases Nat.mod_two_eq_zero_or_one (s.count '"') with h1 | h1 <;> simp [Nat.add_mod, h1]
  · simp only [Bool.not_eq_true] at h
    rw [h]; simp

theorem oddQuotes_append (s t : Str) : oddQuotes (s ++ t) = (oddQuotes s != oddQuotes t) := by
  induction s with
  | nil => simp [oddQuotes]
  | cons c s ih => rw [List.cons_append, oddQuotes_cons, oddQuotes_cons, ih, Bool.bne_assoc]

theorem blex_nested {s : Str} (h : Nested s) : ∀ {k : Nat} {b : Bool} {buf : Str} {acc : List ScriptTok} {rest : Str},
    0 < k → buf ≠ [] → scriptLex (.args k b) buf acc (s ++ rest) =
      scriptLex (.args k (b != oddQuotes s)) (buf ++ s) acc rest := by
  induction h with
  | nil => intro k b buf acc rest _ _; simp [oddQuotes]
  | @char c s h1 h2 _ ih =>
    intro k b buf acc rest hk hb
    rw [List.cons_append, blex_args_char h1 h2 (.inr hk) (.inr (.inr hb)), ih hk (by simp), oddQuotes_cons, Bool.bne_assoc]
    simp
  | @parens s t _ _ ih1 ih2 =>
    intro k b buf acc rest hk hb
    have e : '(' :: s ++ ')' :: t ++ rest = '(' :: (s ++ ')' :: (t ++ rest)) := by simp
    rw [e, blex_args_open, ih1 (by omega) (by simp), blex_args_close, ih2 hk (by simp)]
    rw [List.cons_append, oddQuotes_cons, oddQuotes_append, oddQuotes_cons]
    simp [Bool.bne_assoc]

theorem blex_argBody {s : Str} (h : ArgBody s) : ∀ {b : Bool} {buf : Str} {acc : List ScriptTok} {rest : Str},
    (s.head? ≠ some ' ' ∨ b = true ∨ buf ≠ []) → scriptLex (.args 0 b) buf acc (s ++ rest) =
      scriptLex (.args 0 (b != oddQuotes s)) (buf ++ s) acc rest := by
  induction h with
  | nil => intro b buf acc rest _; simp [oddQuotes]
  | @char c s h1 h2 h3 _ ih =>
    intro b buf acc rest hb
    have hb' : c ≠ ' ' ∨ b = true ∨ buf ≠ [] := by
      rcases hb with h | h
      · exact .inl (fun e => h (by rw [e]; rfl))
      · exact .inr h
    rw [List.cons_append, blex_args_char h1 h2 (.inl h3) hb', ih (.inr (.inr (by simp))), oddQuotes_cons, Bool.bne_assoc]
    simp
  | @parens s t hs _ ih =>
    intro b buf acc rest _
    have e : '(' :: s ++ ')' :: t ++ rest = '(' :: (s ++ ')' :: (t ++ rest)) := by simp
    rw [e, blex_args_open, blex_nested hs (by omega) (by simp), blex_args_close, ih (.inr (.inr (by simp)))]
    rw [List.cons_append, oddQuotes_cons, oddQuotes_append, oddQuotes_cons]
    simp [Bool.bne_assoc]

theorem blex_blanks {n : Nat} {acc : List ScriptTok} {rest : Str} :
    scriptLex (.args 0 false) [] acc (List.replicate n ' ' ++ rest) = scriptLex (.args 0 false) [] acc rest := by
  induction n with
  | zero => rfl
  | succ n ih =>
    rw [List.replicate_succ, List.cons_append]
    conv => lhs; unfold scriptLex
    exact ih

theorem blex_argText {n : Nat} {a : Str} (h : ArgText a) {acc : List ScriptTok} {rest : Str} :
    scriptLex (.args 0 false) [] acc (List.replicate n ' ' ++ a ++ rest) = scriptLex (.args 0 false) a acc rest := by
  obtain ⟨h1, h2, h3⟩ := h
  rw [List.append_assoc, blex_blanks, blex_argBody h1 (.inl h3)]
  simp [oddQuotes, h2]

theorem blex_argsText {as : List (Nat × Str)} (hn : as ≠ []) (h : ∀ a ∈ as, ArgText a.2) {acc : List ScriptTok} {rest : Str} :
    scriptLex (.args 0 false) [] acc (argsText as ++ ')' :: rest) =
      scriptLex .normal [] (acc ++ as.map (fun a => tArg a.2)) rest := by
  induction as generalizing acc with
  | nil => exact absurd rfl hn
  | cons a as ih =>
    cases as with
    | nil =>
      unfold argsText
      rw [blex_argText (h a (by simp))]
      conv => lhs; unfold scriptLex
      rfl
    | cons b as =>
      unfold argsText
      rw [List.append_assoc, blex_argText (h a (by simp)), List.cons_append]
      conv => lhs; unfold scriptLex
      show scriptLex (.args 0 false) [] (acc ++ [tArg a.2]) _ = _
      rw [ih (by simp) (fun x hx => h x (List.mem_cons_of_mem _ hx))]
      simp

theorem argBody_dropBlanks {s : Str} (h : ArgBody s) : ArgBody (s.dropWhile (fun c => c == ' ')) := by
  induction h with
  | nil => exact .nil
  | @char c s h1 h2 h3 h ih =>
    rw [List.dropWhile_cons]
    split
    · exact ih
    · exact .char h1 h2 h3 h
  | @parens s t hs ht _ => exact .parens hs ht

theorem blanks_split : ∀ s : Str, ∃ n, s = List.replicate n ' ' ++ s.dropWhile (fun c => c == ' ')
  | [] => ⟨0, rfl⟩
  | c :: s => by
    by_cases h : c = ' '
    · obtain ⟨n, hn⟩ := blanks_split s
      subst h
      refine ⟨n + 1, ?_⟩
      rw [List.dropWhile_cons_of_pos (by rfl), List.replicate_succ, List.cons_append, ← hn]
    · exact ⟨0, by rw [List.dropWhile_cons_of_neg (by simpa using h)]; rfl⟩

theorem oddQuotes_dropBlanks (s : Str) : oddQuotes (s.dropWhile (fun c => c == ' ')) = oddQuotes s := by
  obtain ⟨n, hn⟩ := blanks_split s
  conv => rhs; rw [hn]
  rw [oddQuotes_append]
  have : oddQuotes (List.replicate n ' ') = false := by
    unfold oddQuotes
    rw [List.count_replicate, if_neg (by decide)]
    rfl
  rw [this]; simp

theorem oddQuotes_add (k : Nat) (s : Str) : ((k + s.count '"') % 2 == 1) = ((k % 2 == 1) != oddQuotes s) := by
  unfold oddQuotes
  rcases Nat.mod_two_eq_zero_or_one k with h1 | h1 <;> rcases Nat.mod_two_eq_zero_or_one (s.count '"') with h2 | h2 <;>
    simp [Nat.add_mod, h1, h2]

theorem blex_piece {a : Str} (h : ArgBody a) (k : Nat) {acc : List ScriptTok} {rest : Str} :
    scriptLex (.args 0 (k % 2 == 1)) [] acc (a ++ rest) =
      scriptLex (.args 0 ((k + a.count '"') % 2 == 1)) (if k % 2 = 0 then a.dropWhile (fun c => c == ' ') else a) acc rest := by
  rw [oddQuotes_add]
  rcases Nat.mod_two_eq_zero_or_one k with h1 | h1
  · rw [h1, if_pos rfl]
    obtain ⟨n, hn⟩ := blanks_split a
    conv => lhs; rw [hn]
    rw [List.append_assoc]
    show scriptLex (.args 0 false) [] acc _ = _
    rw [blex_blanks, blex_argBody (argBody_dropBlanks h), oddQuotes_dropBlanks]
    · rfl
    · left
      intro e
      have := List.head?_dropWhile_not (fun c => c == ' ') a
      rw [e] at this
      simp at this
  · rw [h1, if_neg (by decide)]
    show scriptLex (.args 0 true) [] acc _ = _
    rw [blex_argBody h (.inr (.inl rfl))]
    rfl

theorem blex_pieces : ∀ {as : List Str} {k : Nat} {acc : List ScriptTok} {rest : Str}, as ≠ [] → (∀ a ∈ as, ArgBody a) →
    scriptLex (.args 0 (k % 2 == 1)) [] acc (commaSeparated as ++ ')' :: rest) =
      scriptLex .normal [] (acc ++ (asRead k as).map tArg) rest
  | [], _, _, _, hn, _ => absurd rfl hn
  | [a], k, acc, rest, _, h => by
    show scriptLex (.args 0 (k % 2 == 1)) [] acc (a ++ ')' :: rest) = _
    rw [blex_piece (h a (by simp))]
    conv => lhs; unfold scriptLex
    rfl
  | a :: b :: as, k, acc, rest, _, h => by
    show scriptLex (.args 0 (k % 2 == 1)) [] acc (a ++ ',' :: commaSeparated (b :: as) ++ ')' :: rest) = _
    rw [List.append_assoc, blex_piece (h a (by simp)), List.cons_append]
    conv => lhs; unfold scriptLex
    show scriptLex (.args 0 ((k + a.count '"') % 2 == 1)) [] (acc ++ [tArg _]) _ = _
    rw [blex_pieces (by simp) (fun x hx => h x (List.mem_cons_of_mem _ hx))]
    conv => rhs; rw [asRead]
    simp

/-- Every text with balanced parentheses is a list of pieces with commas between them. -/
theorem nested_pieces {s : Str} (h : Nested s) : ∃ as, as ≠ [] ∧ (∀ a ∈ as, ArgBody a) ∧ s = commaSeparated as := by
  have add : ∀ {p : Str} {as : List Str}, as ≠ [] → (∀ q, ArgBody q → ArgBody (p ++ q)) → (∀ a ∈ as, ArgBody a) →
      ∃ bs, bs ≠ [] ∧ (∀ a ∈ bs, ArgBody a) ∧ p ++ commaSeparated as = commaSeparated bs := by
    intro p as hn hp h
    cases as with
    | nil => exact absurd rfl hn
    | cons a as =>
      refine ⟨(p ++ a) :: as, by simp, ?_, ?_⟩
      · intro x hx
        rcases List.mem_cons.mp hx with rfl | hx
        · exact hp a (h a (by simp))
        · exact h x (List.mem_cons_of_mem _ hx)
      · cases as with
        | nil => rfl
        | cons b as => simp [commaSeparated]
  induction h with
  | nil => exact ⟨[[]], by simp, by intro a ha; rw [List.mem_singleton] at ha; subst ha; exact .nil, rfl⟩
  | @char c s h1 h2 _ ih =>
    obtain ⟨as, h3, h4, rfl⟩ := ih
    by_cases hc : c = ','
    · subst hc
      refine ⟨[] :: as, by simp, ?_, ?_⟩
      · intro x hx
        rcases List.mem_cons.mp hx with rfl | hx
        · exact .nil
        · exact h4 x hx
      · cases as with
        | nil => exact absurd rfl h3
        | cons b as => rfl
    · exact add (p := [c]) h3 (fun q hq => .char h1 h2 hc hq) h4
  | @parens s t hs _ _ ih =>
    obtain ⟨as, h3, h4, rfl⟩ := ih
    obtain ⟨bs, e1, e2, e3⟩ := add (p := '(' :: s ++ [')']) h3
      (fun q hq => by
        have := ArgBody.parens hs hq
        rwa [show '(' :: s ++ [')'] ++ q = '(' :: s ++ ')' :: q by simp]) h4
    exact ⟨bs, e1, e2, by rw [← e3]; simp⟩

theorem blex_wordChar {c : Char} (h : NameChar c) {buf : Str} {acc : List ScriptTok} {rest : Str} :
    scriptLex .normal buf acc (c :: rest) = scriptLex .normal (buf ++ [c]) acc rest := by
  obtain ⟨h1, h2⟩ := h
  simp only [List.mem_cons, List.not_mem_nil, or_false, not_or] at h2
  obtain ⟨h3, h4, h5, h6, h7, h8, h9, h10, h11, h12, h13, h14, h15, h16⟩ := h2
  conv => lhs; unfold scriptLex
  have hs : scriptSymbol c = none := by
    unfold scriptSymbol
    split <;> first | rfl | (exfalso; revert h3 h4 h5 h6 h7 h8 h9 h10 h11 h12 h13 h14 h15 h16; simp)
  simp [h1, h3, hs, h8, h9, h10, h11]

theorem blex_word {w : Str} (h : ∀ c ∈ w, NameChar c) {buf : Str} {acc : List ScriptTok} {rest : Str} :
    scriptLex .normal buf acc (w ++ rest) = scriptLex .normal (buf ++ w) acc rest := by
  induction w generalizing buf with
  | nil => simp
  | cons c w ih =>
    rw [List.cons_append, blex_wordChar (h c (by simp)), ih (fun x hx => h x (List.mem_cons_of_mem _ hx))]
    simp

/-- A character that ends a word first adds the word to the tokens. -/
theorem blex_flush {d : Char} (h : ¬ NameChar d) {buf : Str} {acc : List ScriptTok} {rest : Str} :
    scriptLex .normal buf acc (d :: rest) = scriptLex .normal [] (acc ++ flushWord buf) (d :: rest) := by
  conv => lhs; unfold scriptLex
  conv => rhs; unfold scriptLex
  have e : flushWord [] = [] := rfl
  dsimp only
  split
  · simp [e]
  · split
    · simp [e]
    · split
      · simp [e]
      · split
        · simp [e]
        · split
          · simp [e]
          · split
            · simp [e]
            · split
              · simp [e]
              · rename_i h1 h2 h3 h4 h5 h6 h7 h8
                exfalso
                refine h ⟨by simpa using h1, ?_⟩
                simp only [List.mem_cons, List.not_mem_nil, or_false, not_or]
                refine ⟨h2, ?_, ?_, ?_, ?_, h5, h6, h8, h7, ?_, ?_, ?_, ?_, ?_⟩ <;>
                  (rintro rfl; simp [scriptSymbol] at h4)

theorem keyword_word {w : Str} {ty : ScriptTokType} (h : (w, ty) ∈ keywords) :
    (∀ c ∈ w, NameChar c) ∧ flushWord w = [⟨ty, []⟩] := by
  simp only [keywords, List.mem_cons, List.not_mem_nil, or_false, Prod.mk.injEq] at h
  rcases h with ⟨rfl, rfl⟩ | ⟨rfl, rfl⟩ | ⟨rfl, rfl⟩ | ⟨rfl, rfl⟩ | ⟨rfl, rfl⟩ | ⟨rfl, rfl⟩ <;>
    exact ⟨by decide, by rfl⟩

theorem flushWord_name {w : Str} (h1 : w ≠ []) (h2 : w ∉ keywords.map (·.1)) (h3 : isFloatText w = false) :
    flushWord w = [tName w] := by
  simp only [keywords, List.map_cons, List.map_nil, List.mem_cons, List.not_mem_nil, or_false, not_or] at h2
  obtain ⟨h4, h5, h6, h7, h8, h9⟩ := h2
  unfold flushWord wordTok
  rw [if_neg (by simpa using h1), if_neg h4, if_neg h5, if_neg h6, if_neg h7, if_neg h8, if_neg h9, h3]
  rfl

theorem blex_symbol {c : Char} {ty : ScriptTokType} (h : scriptSymbol c = some ty) (h1 : isSpace c = false) (h2 : c ≠ '(')
    {acc : List ScriptTok} {rest : Str} :
    scriptLex .normal [] acc (c :: rest) = scriptLex .normal [] (acc ++ [⟨ty, []⟩]) rest := by
  conv => lhs; unfold scriptLex
  simp [h1, h2, h, flushWord]

theorem blex_scriptText {ts : List ScriptTok} {s : Str} (h : ScriptText ts s) :
    ∀ acc, scriptLex .normal [] acc s = .ok (acc ++ ts) := by
  induction h with
  | nil => intro acc; simp [scriptLex]
  | space h _ ih =>
    intro acc
    unfold scriptLex
    simp [h, flushWord, ih]
  | semi _ ih => intro acc; rw [blex_symbol (ty := .semiColon) rfl rfl (by decide), ih]; simp
  | «open» _ ih => intro acc; rw [blex_symbol (ty := .openBracket) rfl rfl (by decide), ih]; simp
  | close _ ih => intro acc; rw [blex_symbol (ty := .closeBracket) rfl rfl (by decide), ih]; simp
  | keyword hk hd _ ih =>
    intro acc
    obtain ⟨h1, h2⟩ := keyword_word hk
    rw [blex_word h1, blex_flush hd, ih, List.nil_append, h2]
    simp
  | name h1 h2 h3 h4 hd _ ih =>
    intro acc
    rw [blex_word h2, blex_flush hd, ih, List.nil_append, flushWord_name h1 h3 h4]
    simp
  | args h1 h2 _ ih =>
    intro acc
    rw [List.cons_append]
    unfold scriptLex
    show scriptLex (.args 0 false) [] (acc ++ flushWord []) _ = _
    rw [blex_argsText h1 h2, ih]
    simp [flushWord]

/-! ### Parser -/

variable {u : Bool}

theorem parse_params {ps : List Str} {stack : List Instruction} {tmp : FScript} {acc : List FScript} {ts : List ScriptTok} :
    parseScripts .params stack tmp acc (ps.map tArg ++ ts) =
      parseScripts .params stack { tmp with arguments := tmp.arguments ++ ps } acc ts := by
  induction ps generalizing tmp with
  | nil => simp
  | cons a ps ih =>
    rw [List.map_cons, List.cons_append]
    conv => lhs; unfold parseScripts
    show parseScripts .params stack { tmp with arguments := tmp.arguments ++ [a] } acc _ = _
    rw [ih]
    simp

theorem parse_step {args sw : List Str} {op : Instruction} {stack : List Instruction} {tmp : FScript} {acc : List FScript}
    {ts : List ScriptTok} : parseScripts (.step op sw) stack tmp acc (args.map tArg ++ tSemi :: ts) =
      parseScripts .body stack (tmp.push op (sw ++ args)) acc ts := by
  induction args generalizing sw with
  | nil => simp [parseScripts]
  | cons a as ih =>
    rw [List.map_cons, List.cons_append]
    conv => lhs; unfold parseScripts
    show parseScripts (.step op (sw ++ [a])) stack tmp acc _ = _
    rw [ih]
    simp

theorem parse_junk {args : List Str} {stack : List Instruction} {tmp : FScript} {acc : List FScript}
    {ts : List ScriptTok} : parseScripts .body stack tmp acc (args.map tArg ++ tSemi :: ts) =
      parseScripts .body stack tmp acc ts := by
  induction args with
  | nil => simp [parseScripts]
  | cons a as ih =>
    rw [List.map_cons, List.cons_append]
    conv => lhs; unfold parseScripts
    exact ih

/-- The script with more instructions. -/
def FScript.add (s : FScript) (code : List ScriptStep) : FScript := { s with instructions := s.instructions ++ code }

theorem FScript.add_nil (s : FScript) : s.add [] = s := by simp [FScript.add]

theorem FScript.push_add (s : FScript) (op : Instruction) (sw : List Str) (code : List ScriptStep) :
    (s.push op sw).add code = s.add (instr op sw :: code) := by simp [FScript.add, FScript.push, instr]

theorem FScript.add_push (s : FScript) (op : Instruction) (sw : List Str) (code : List ScriptStep) :
    (s.add code).push op sw = s.add (code ++ [instr op sw]) := by simp [FScript.add, FScript.push, instr]

theorem FScript.add_add (s : FScript) (a b : List ScriptStep) : (s.add a).add b = s.add (a ++ b) := by
  simp [FScript.add]

theorem written_head {p : Prog} {ts rest : List ScriptTok} (h : Written u p ts) (hr : startsElse rest = false) :
    startsElse (ts ++ rest) = false := by
  cases h <;> first | exact hr | rfl

mutual

theorem parse_written {p : Prog} {ts : List ScriptTok} (h : Written u p ts) (stack : List Instruction) (tmp : FScript)
    (acc : List FScript) (rest : List ScriptTok) (hr : startsElse rest = false) :
    parseScripts .body stack tmp acc (ts ++ rest) = parseScripts .body stack (tmp.add p.code) acc rest := by
  match h with
  | .nil => rw [Prog.code, FScript.add_nil, List.nil_append]
  | .step (name := name) (op := op) (args := args) (ts := ts) ho h =>
    have e : tName name :: args.map tArg ++ tSemi :: ts ++ rest = tName name :: (args.map tArg ++ tSemi :: (ts ++ rest)) := by
      simp
    rw [e]
    conv => lhs; unfold parseScripts
    simp only [ho]
    rw [parse_step, parse_written h _ _ _ _ hr, FScript.push_add, Prog.code]
    rfl
  | .exitIf (c := c) (ts := ts) h =>
    have e : tName t!"exit_loop_if" :: tArg c :: tSemi :: ts ++ rest =
        tName t!"exit_loop_if" :: ([c].map tArg ++ tSemi :: (ts ++ rest)) := by simp
    rw [e]
    conv => lhs; unfold parseScripts
    simp only [show Instruction.fromStr t!"exit_loop_if" = some .exitLoopIf from rfl]
    rw [parse_step, parse_written h _ _ _ _ hr, FScript.push_add, Prog.code]
    rfl
  | .cond (c := c) (b := b) (a := a) (ts := ts) (body := body) (alt := alt) hb ha h =>
    have e : tIf :: tArg c :: tOpen :: b ++ tClose :: a ++ ts ++ rest =
        tIf :: tArg c :: tOpen :: (b ++ tClose :: (a ++ (ts ++ rest))) := by simp
    rw [e]
    have e2 : ∀ r, parseScripts .body stack tmp acc (tIf :: tArg c :: tOpen :: r) =
        parseScripts .body (.if :: stack) (tmp.push .if [c]) acc r := by
      intro r
      simp [parseScripts]
    rw [e2, parse_written hb _ _ _ _ rfl, parse_writtenAlt ha _ _ _ _ (written_head h hr), parse_written h _ _ _ _ hr,
      FScript.push_add, FScript.add_add, FScript.add_add, Prog.code]
    simp
  | .loop (b := b) (ts := ts) hb h =>
    have e : tLoop :: tOpen :: b ++ tClose :: ts ++ rest = tLoop :: tOpen :: (b ++ tClose :: (ts ++ rest)) := by simp
    rw [e]
    have e2 : ∀ r, parseScripts .body stack tmp acc (tLoop :: tOpen :: r) =
        parseScripts .body (.loop :: stack) (tmp.push .loop []) acc r := by
      intro r
      simp [parseScripts]
    rw [e2, parse_written hb _ _ _ _ rfl]
    conv => lhs; unfold parseScripts
    simp only [written_head h hr, Bool.false_eq_true, if_false]
    rw [parse_written h _ _ _ _ hr, FScript.add_push, FScript.push_add, FScript.add_add, Prog.code]
    simp
  | .unknown (name := name) (args := args) (ts := ts) _ hn h =>
    have e : tName name :: args.map tArg ++ tSemi :: ts ++ rest = tName name :: (args.map tArg ++ tSemi :: (ts ++ rest)) := by
      simp
    rw [e]
    conv => lhs; unfold parseScripts
    simp only [hn]
    rw [parse_junk, parse_written h _ _ _ _ hr]

theorem parse_writtenAlt {al : Alt} {ts : List ScriptTok} (h : WrittenAlt u al ts) (stack : List Instruction) (tmp : FScript)
    (acc : List FScript) (rest : List ScriptTok) (hr : startsElse rest = false) :
    parseScripts .body (.if :: stack) tmp acc (tClose :: (ts ++ rest)) =
      parseScripts .body stack (tmp.add (al.code ++ [instr .endIf []])) acc rest := by
  match h with
  | .none =>
    conv => lhs; unfold parseScripts
    simp only [List.nil_append, hr, Bool.false_eq_true, if_false]
    rfl
  | .else (b := b) hb =>
    have e : tClose :: (tElse :: tOpen :: b ++ [tClose] ++ rest) = tClose :: tElse :: tOpen :: (b ++ tClose :: rest) := by simp
    rw [e]
    have e2 : ∀ r, parseScripts .body (.if :: stack) tmp acc (tClose :: tElse :: tOpen :: r) =
        parseScripts .body (.if :: stack) (tmp.push .else []) acc r := by
      intro r
      simp [parseScripts, startsElse]
    rw [e2, parse_written hb _ _ _ _ rfl]
    conv => lhs; unfold parseScripts
    simp only [hr, Bool.false_eq_true, if_false]
    rw [FScript.add_push, FScript.push_add, Alt.code]
    rfl
  | .elif (c := c) (b := b) (a := a) hb ha =>
    have e : tClose :: (tElif :: tArg c :: tOpen :: b ++ tClose :: a ++ rest) =
        tClose :: tElif :: tArg c :: tOpen :: (b ++ tClose :: (a ++ rest)) := by simp
    rw [e]
    have e2 : ∀ r, parseScripts .body (.if :: stack) tmp acc (tClose :: tElif :: tArg c :: tOpen :: r) =
        parseScripts .body (.if :: stack) (tmp.push .elseIf [c]) acc r := by
      intro r
      simp [parseScripts, startsElse]
    rw [e2, parse_written hb _ _ _ _ rfl, parse_writtenAlt ha _ _ _ _ hr, FScript.push_add, FScript.add_add, Alt.code]
    simp

end

theorem parse_defs {ds : List ScriptDef} {ts : List ScriptTok} (h : WrittenDefs u ds ts) (tmp : FScript) (acc : List FScript) :
    parseScripts .top [] tmp acc ts = .ok (some (acc ++ ds.map ScriptDef.script)) := by
  induction h generalizing tmp acc with
  | nil => simp [parseScripts]
  | @cons d ds b ts hb _ ih =>
    have e : tDefine :: tName d.name :: d.params.map tArg ++ tOpen :: b ++ tClose :: ts =
        tDefine :: tName d.name :: (d.params.map tArg ++ tOpen :: (b ++ tClose :: ts)) := by simp
    rw [e]
    conv => lhs; unfold parseScripts
    show parseScripts .name [] {} acc _ = _
    conv => lhs; unfold parseScripts
    show parseScripts .params [] { name := d.name } acc _ = _
    rw [parse_params]
    conv => lhs; unfold parseScripts
    show parseScripts .body [] { name := d.name, arguments := [] ++ d.params } acc _ = _
    rw [parse_written hb _ _ _ _ rfl]
    conv => lhs; unfold parseScripts
    dsimp only
    rw [ih]
    simp [ScriptDef.script, FScript.add]

/-- The parser never returns an error: it only ever puts `If` and `Loop` on its stack. -/
theorem parse_some (ts : List ScriptTok) : ∀ (m : ScriptMode) (stack : List Instruction) (tmp : FScript) (acc : List FScript),
    (∀ i ∈ stack, i = .if ∨ i = .loop) → parseScripts m stack tmp acc ts ≠ .ok none := by
  induction ts with
  | nil => intro m stack tmp acc _; cases m <;> simp [parseScripts]
  | cons t ts ih =>
    intro m stack tmp acc hs
    unfold parseScripts
    cases m <;> dsimp only
    case body =>
      split
      · split <;> exact ih _ _ _ _ hs
      · split
        · exact ih _ _ _ _ hs
        · rename_i top below
          have hb : ∀ i ∈ below, i = .if ∨ i = .loop := fun i hi => hs i (List.mem_cons_of_mem _ hi)
          split
          · exact ih _ _ _ _ hs
          · split
            · exact ih _ _ _ _ hb
            · exact ih _ _ _ _ hb
            · rename_i h1 h2
              rcases hs top (by simp) with h | h
              · exact absurd h h1
              · exact absurd h h2
      all_goals exact ih _ _ _ _ hs
    all_goals
      repeat' split
      all_goals first
        | exact ih _ _ _ _ hs
        | (intro h; cases h; done)
        | (refine ih _ _ _ _ ?_
           intro i hi
           rcases List.mem_cons.mp hi with rfl | hi
           · simp
           · exact hs i hi)

/-- Compiling a text that spells definitions. -/
theorem compile_defs {u : Bool} {ds : List ScriptDef} {ts : List ScriptTok} {s : Str} (hs : ScriptText ts s)
    (hw : WrittenDefs u ds ts) : compileScripts s = .ok (ds.map ScriptDef.script) := by
  unfold compileScripts lexScript
  rw [blex_scriptText hs, ok_bind, List.nil_append, parse_defs hw, ok_bind]
  rfl

end BurnFm
