import Verif.PegDiagText
import Verif.PegDiagMono
import Verif.Props.ParseLits
import Verif.Props.ParseTotal
/-!
# What the parser says about texts it rejects (C66, C67, C68)
-/
namespace Verif.Props
open Verif Verif.Ast Verif.Peg Verif.Syntax

set_option linter.unusedSimpArgs false
set_option linter.unusedVariables false

/-! ## Specification -/

/-- A place in a file, as in `file:line:column (offset)`. -/
def place (fn : List Char) (p : Pos) : List Char :=
  (if fn = [] then [] else fn ++ [':']) ++
    (p.line.repr ++ ":" ++ p.col.repr ++ " (" ++ p.offset.repr ++ ")").toList

/-- The rule an error occurred in, if any. -/
def within (r : Option RuleName) : List Char :=
  match r with
  | none => []
  | some r => (": rule " ++ r.name).toList

/-- Lines that may be reported about a text: some byte is no part of valid UTF-8, or some number is wrong, at its
position. -/
inductive Remark (fn : List Char) (rs : List Rune) : List Char → Prop
  | byte (k : Nat) (b : UInt8) (r : Option RuleName) : rs[k]? = some (.bad b) →
      Remark fn rs (place fn (posAt rs k) ++ within r ++ ": invalid encoding".toList)
  | number (k : Nat) (cs : List Char) (why : String) : k ≤ rs.length → cs.map .ok <+: rs.drop k → Wrong cs why →
      Remark fn rs (place fn (posAt rs k) ++ within (some .IntLiteral) ++
        ": strconv.ParseInt: parsing \"".toList ++ cs ++ "\": ".toList ++ why.toList)

/-- Reading the text as a file meets something unexpected at the `i`-th rune, where `w` would have been fine. -/
def Unexpected (rs : List Rune) (i : Nat) (w : List Char) : Prop :=
  Blame rs rules (.ref .File) [] ⟨rs, [], headBad rs⟩ false i w

/-- What is shown if the end of the text would have been fine. -/
def noMore : List Char := ['!', '.']

/-- The last place where reading the text as a file meets something unexpected. -/
structure Last (rs : List Rune) (k : Nat) : Prop where
  le : k ≤ rs.length
  stuck : ∃ w, Unexpected rs k w
  last : ∀ i w, Unexpected rs i w → i ≤ k

/-- The report that no way to read the text as a file goes beyond the `k`-th rune. -/
structure NoMatch (fn : List Char) (rs : List Rune) (k : Nat) (t : List Char) : Prop where
  last : Last rs k
  clean : ∀ (i : Nat) (b : UInt8), i ≤ k → rs[i]? ≠ some (.bad b)
  text : ∃ ws eof, ws.Pairwise (· < ·) ∧ (∀ w, w ∈ ws ↔ Unexpected rs k w ∧ w ≠ noMore) ∧
    (eof = true ↔ Unexpected rs k noMore) ∧
    t = place fn (posAt rs k) ++ ": no match found, expected: ".toList ++ series (ws ++ if eof = true then ["EOF".toList] else [])

/-- A report made of remarks, one on each line, with one on every wrong byte up to the `k`-th rune. -/
structure Remarks (fn : List Char) (rs : List Rune) (k : Nat) (ls : List (List Char)) (t : List Char) : Prop where
  nonempty : ls ≠ []
  once : ls.Nodup
  each : ∀ l ∈ ls, Remark fn rs l
  bytes : ∀ i b, i ≤ k → rs[i]? = some (.bad b) →
    ∃ r, place fn (posAt rs i) ++ within r ++ ": invalid encoding".toList ∈ ls
  text : t = List.intercalate ['\n'] ls

/-- With any sufficient bound on nested calls, this is what the parser says about the bytes. -/
def Reports (fn : List Char) (b : List UInt8) (r : Report) : Prop := ∃ N, ∀ fuel, N ≤ fuel → reportBytes fuel fn b = some r

/-! ## Lemmas -/

theorem errPrefix_eq (fn : List Char) (r : Option RuleName) (p : Pos) : errPrefix fn r p = place fn p ++ within r := by
  cases r <;> simp [errPrefix, place, within, dec]

theorem numError_eq {cs : List Char} {why : String} (h : Wrong cs why) :
    numError cs = "strconv.ParseInt: parsing \"".toList ++ cs ++ "\": ".toList ++ why.toList := by
  have h0 : numError cs = "strconv.ParseInt: parsing \"".toList ++ cs ++ "\": ".toList ++
      (if (litValue cs).isNone then "invalid syntax".toList else "value out of range".toList) := by
    unfold numError litValue
    split <;> simp only []
  rw [h0]
  clear h0
  cases h with
  | syn c ds hc hd =>
    have : litValue ('0' :: c :: ds) = none := by
      rcases hc with rfl | rfl <;> rfl
    rw [this]; rfl
  | range hn hl =>
    next b ds =>
    have : litValue cs ≠ none := by
      intro hv
      have h1 : parseInt cs = (0, true) := by rw [parseInt_eq, hv]
      have h2 : parseInt cs = val63 (Syntax.number b ds) := by
        cases hn with
        | dec c ds h0 hd => exact parseInt_dec h0 hd
        | oct ds hne hd => exact parseInt_oct hd
        | hex ds hne hd =>
          cases ds with
          | nil => exact absurd rfl hne
          | cons c ds => exact parseInt_hex hd
      rw [h1, val63, if_neg (by omega)] at h2
      cases h2
    cases hv : litValue cs with
    | none => exact absurd hv this
    | some n => rfl

theorem remark_of_good {fn : List Char} {rs : List Rune} {x : PErr} (h : Good rs x) : Remark fn rs (x.text fn) := by
  obtain ⟨rule, pos, inner⟩ := x
  cases inner with
  | encoding =>
    obtain ⟨k, b, h1, h2⟩ := h
    have h2 : pos = posAt rs k := h2
    have e : ": invalid encoding".toList = ": ".toList ++ "invalid encoding".toList := by decide +kernel
    have := Remark.byte (fn := fn) k b rule h1
    rw [e, ← List.append_assoc, ← errPrefix_eq, ← h2] at this
    exact this
  | action t =>
    obtain ⟨h1, k, h2, h3, h4, cs, why, rfl, h5⟩ := h
    have h1 : rule = some .IntLiteral := h1
    have h3 : pos = posAt rs k := h3
    have e : ": strconv.ParseInt: parsing \"".toList = ": ".toList ++ "strconv.ParseInt: parsing \"".toList := by decide +kernel
    have e1 : (cs.map Rune.ok).map Rune.char = cs := by
      rw [List.map_map]
      exact List.map_id cs
    have e2 : Cause.text (.action (cs.map .ok)) = numError cs := congrArg numError e1
    have := Remark.number (fn := fn) k cs why h2 h4 h5
    rw [e, ← h1, ← errPrefix_eq, ← h3] at this
    simp only [PErr.text, e2, numError_eq h5]
    simpa only [List.append_assoc] using this

theorem start_forget (rs : List Rune) : (startD rs).forget = ⟨rs, [], headBad rs⟩ := by
  simp only [startD, DSt.look, DSt.forget]
  cases headBad rs <;> simp

theorem start_okay (rs : List Rune) : Okay rs (startD rs) := by
  refine ⟨?_, by simp [startD, DSt.look]⟩
  intro x hx
  simp only [startD, DSt.look] at hx
  split at hx
  · next hb =>
    simp only [List.nil_append, List.mem_singleton] at hx
    subst hx
    cases rs with
    | nil => cases hb
    | cons r t =>
      cases r with
      | ok c => cases hb
      | bad b => exact ⟨0, b, rfl, (start_at _).pos⟩
  · cases hx

theorem start_farthest (rs : List Rune) : Farthest rs (fun _ _ => False) (startD rs) :=
  ⟨0, Nat.zero_le _, .inr ⟨rfl, rfl⟩, fun _ _ h => h.elim, fun w => by simp [startD, DSt.look], .inl rfl, full_zero rs⟩

/-- Remarks of a state with errors. -/
theorem remarks_of {fn : List Char} {rs : List Rune} {st : DSt} {k : Nat} (h : Okay rs st) (hk : Full rs k st) (hn : st.errs ≠ []) :
    Remarks fn rs k (dedupe [] (st.errs.map (·.text fn))) (errText (st.errs.map (·.text fn))) where
  nonempty := by
    cases he : st.errs with
    | nil => exact absurd he hn
    | cons x xs =>
      intro hc
      have : x.text fn ∈ dedupe [] ((x :: xs).map (·.text fn)) := by
        rw [dedupe_mem]; exact ⟨by simp, by simp⟩
      rw [hc] at this
      cases this
  once := dedupe_nodup _ _
  each := by
    intro l hl
    rw [dedupe_mem, List.mem_map] at hl
    obtain ⟨⟨x, hx, rfl⟩, _⟩ := hl
    exact remark_of_good (h.1 x hx)
  bytes := by
    intro i b hi hb
    obtain ⟨x, hx, h1, h2⟩ := hk i _ hi hb rfl
    refine ⟨x.rule, ?_⟩
    rw [dedupe_mem, List.mem_map]
    refine ⟨⟨x, hx, ?_⟩, by simp⟩
    have e : ": invalid encoding".toList = ": ".toList ++ "invalid encoding".toList := by decide +kernel
    rw [PErr.text, h1, h2, errPrefix_eq, e, ← List.append_assoc]
    rfl
  text := join_eq _ _

/-- The first gap of a file ends where no white space follows, and not before a line feed. -/
theorem gap_blame {rs : List Rune} (env : Env) : ∀ n i (st : St), st.rest.length = n → i ≤ rs.length → st.rest = rs.drop i →
    ∃ k, i ≤ k ∧ (∀ r, rs[i]? = some r → r.char = '\n' → i < k) ∧
      Blame rs rules (.star (.ref .Skip)) env st false k (clsWant [' ', '\t', '\r'] []) := by
  intro n
  induction n using Nat.strongRecOn with
  | _ n ih =>
    intro i st hn hi hr
    cases hs : ev rules (.ref .Skip) [] st with
    | ok v env1 st1 =>
      have hm := ev_moves rules (.ref .Skip) [] st
      have he := ev_eats rules_wellFormed.null (.ref .Skip) [] st rfl
      rw [hs] at hm he
      have he : st1.rest.length < st.rest.length := he
      obtain ⟨p, hp⟩ := hm.1
      have h1 : st1.rest = rs.drop (i + p.length) := by
        rw [← List.drop_drop, ← hr, ← hp, List.drop_left]
      have h2 : st.rest.length = p.length + st1.rest.length := by rw [← hp, List.length_append]
      have h3 : st.rest.length = rs.length - i := by rw [hr, List.length_drop]
      obtain ⟨k, h4, _, h5⟩ := ih st1.rest.length (by omega) (i + p.length) st1 rfl (by omega) h1
      exact ⟨k, by omega, fun _ _ _ => by omega, blame_star.2 (.inr ⟨_, _, _, hs, h5⟩)⟩
    | fail st1 =>
      have hw : ¬ Matches (.cls [' ', '\t', '\r'] []) st.rest := by
        rintro ⟨r, t, h1, h2⟩
        have : ev rules (.ref .Whitespace) [] st = .ok (.bytes [r]) [] st.read := by
          have hin : inClass [' ', '\t', '\r'] [] r.char = true := by
            simp only [List.not_mem_nil, false_and, exists_false, or_false, List.mem_cons] at h2
            rcases h2 with h2 | h2 | h2 <;> rw [h2] <;> rfl
          refine ev_ref_ok (env' := []) ?_
          rw [show rules .Whitespace = rWhitespace from rfl, rWhitespace, ev_cls, h1]
          simp only [hin, if_true]
        rw [ev_ref, show rules .Skip = rSkip from rfl, rSkip, ev_choice] at hs
        simp only [choiceLoop, this] at hs
        cases hs
      refine ⟨i, Nat.le_refl _, ?_, blame_star.2 (.inl ?_)⟩
      · intro r hri hc
        exfalso
        have h1 : st.rest = r :: rs.drop (i + 1) := by
          rw [List.getElem?_eq_some_iff] at hri
          obtain ⟨hl, rfl⟩ := hri
          rw [hr, List.drop_eq_getElem_cons hl]
        have h2 : ∃ s, ev rules (.ref .Whitespace) [] st = .fail s ∧ s.rest = st.rest := by
          rw [ev_ref, show rules .Whitespace = rWhitespace from rfl, rWhitespace, ev_cls, h1]
          have hin : inClass [' ', '\t', '\r'] [] r.char = false := by rw [hc]; rfl
          simp only [hin]
          exact ⟨_, rfl, h1⟩
        obtain ⟨s, h2, h3⟩ := h2
        rw [ev_ref, show rules .Skip = rSkip from rfl, rSkip, ev_choice] at hs
        simp only [choiceLoop, h2] at hs
        rcases ev_lit_split (g := rules) "\n" [] { s with ling := st.ling } with ⟨v, s', p, h4, _⟩ | ⟨_, h4⟩
        · have : ev rules (.ref .EOL) [] { s with ling := st.ling } = .ok v [] s' := ev_ref_ok h4
          simp only [this] at hs
          cases hs
        · refine h4 ?_
          rw [show ({ s with ling := st.ling } : St).rest = s.rest from rfl, h3, h1, List.map_cons, hc]
          exact ⟨_, rfl⟩
      · rw [blame_ref, show rules .Skip = rSkip from rfl, rSkip, blame_choice]
        left
        rw [blame_ref, show rules .Whitespace = rWhitespace from rfl, rWhitespace]
        exact ⟨false, _, st, .cls _ _ _ _, hi, hr, by simpa using hw, rfl⟩
    | panic => exact absurd hs (ev_ref_no_panic _ _ _)
    | timeout => exact absurd hs (ev_ref_finishes _ _ _)

theorem unexpected_some (rs : List Rune) : ∃ k w, Unexpected rs k w ∧ (∀ r, rs[0]? = some r → r.char = '\n' → 0 < k) := by
  obtain ⟨k, _, h1, h2⟩ := gap_blame (rs := rs) [] _ 0 ⟨rs, [], headBad rs⟩ rfl (Nat.zero_le _) rfl
  refine ⟨k, clsWant [' ', '\t', '\r'] [], ?_, h1⟩
  unfold Unexpected
  rw [blame_ref, show rules .File = rFile from rfl, rFile, blame_action, blame_seq]
  left
  rw [blame_ref]
  exact h2

/-- What a failed run without recorded errors amounts to. -/
theorem noMatch_of {fn : List Char} {rs : List Rune} {st : DSt} (h : Farthest rs (Unexpected rs) st) :
    ∃ k, Last rs k ∧ Full rs k st ∧ (st.errs = [] → NoMatch fn rs k (errText [noMatchText fn st.maxPos (expectedOf (dedupe [] st.maxExp))])) := by
  obtain ⟨m, hm, hp, hS, hx, hne, hfu⟩ := h
  obtain ⟨k, w, hk, h0⟩ := unexpected_some rs
  have hpos : st.maxPos = posAt rs m := by
    rcases hp with hp | ⟨rfl, hp⟩
    · exact hp
    · have hk0 : k = 0 := by have := hS k w hk; omega
      subst hk0
      rw [hp]
      cases rs with
      | nil => rfl
      | cons r t =>
        have hc : r.char ≠ '\n' := fun hc => Nat.lt_irrefl 0 (h0 r rfl hc)
        simp [posAt, newlines, lastLine, byteLength, hc]
  have hlast : Last rs m := by
    refine ⟨hm, ?_, hS⟩
    rcases hne with rfl | h
    · have := hS k w hk
      obtain rfl : k = 0 := by omega
      exact ⟨w, hk⟩
    · exact h
  refine ⟨m, hlast, hfu, fun he => ⟨hlast, ?_, sortTexts ((dedupe [] st.maxExp).filter (· ≠ ['!', '.'])),
    decide (['!', '.'] ∈ dedupe [] st.maxExp), ?_, ?_, ?_, ?_⟩⟩
  · intro i b hi hb
    obtain ⟨x, hx, _⟩ := hfu i _ hi hb rfl
    rw [he] at hx
    cases hx
  · exact sortTexts_sorted ((dedupe_nodup _ _).filter _)
  · intro x
    rw [sortTexts_mem, List.mem_filter, dedupe_mem, hx]
    simp [noMore]
  · rw [decide_eq_true_eq, dedupe_mem, hx]
    simp [noMore]
  · simp only [errText, dedupe, List.not_mem_nil, if_false, join, noMatchText, expectedOf, listJoin_series, errPrefix_eq, hpos, within,
      decide_eq_true_eq]
    simp

/-- All there is to know about a report. -/
theorem report_cases (fn : List Char) (rs : List Rune) : ∃ N, ∀ fuel, N ≤ fuel →
    (∃ f, outcome rs = .ok f ∧ report fuel fn rs = some (.ok f)) ∨
    (∃ t ls, outcome rs = .err "errors" ∧ report fuel fn rs = some (.err t) ∧ Remarks fn rs rs.length ls t) ∨
    ∃ t k, outcome rs = .err "no match" ∧ report fuel fn rs = some (.err t) ∧ Last rs k ∧
      ((∃ ls, Remarks fn rs k ls t) ∨ NoMatch fn rs k t) := by
  obtain ⟨N, hN⟩ := ev_eventually rules (.ref .File) [] ⟨rs, [], headBad rs⟩
  refine ⟨N, fun fuel hf => ?_⟩
  have hs := parseD_same (rs := rs) rules fuel none false (.ref .File) [] (startD rs) (start_inv rs)
  have ho := parseD_okay (rs := rs) fuel none false (.ref .File) [] (startD rs) trivial (start_inv rs) (start_okay rs)
  have hm := parseD_farthest (rs := rs) rules fuel none false (.ref .File) [] (startD rs) _ (start_inv rs) (start_farthest rs)
  rw [start_forget] at hs hm
  rw [hN fuel hf] at hs
  have hx : ∀ st : DSt, (st.forget.errs = true ↔ st.errs ≠ []) := by
    intro st; simp [DSt.forget]
  unfold report outcome
  cases hr : ev rules (.ref .File) [] ⟨rs, [], headBad rs⟩ with
  | timeout => exact absurd hr (ev_ref_finishes _ _ _)
  | panic => exact absurd hr (ev_ref_no_panic _ _ _)
  | ok v env s =>
    rw [hr] at hs
    cases hd : parseD rules fuel none false (.ref .File) [] (startD rs) with
    | ok v' env' st =>
      rw [hd] at hs ho hm
      obtain ⟨rfl, rfl, rfl, hi, _⟩ := hs
      simp only [hx]
      by_cases he : st.errs = []
      · left
        obtain ⟨f, rfl⟩ : ∃ f, v = .file f := by
          have h := outcome_cases rs
          unfold outcome at h
          rw [hr] at h
          simp only [hx, he, ne_eq, not_true_eq_false, if_false] at h
          cases v <;> first | exact ⟨_, rfl⟩ | simp at h
        exact ⟨f, by simp [he], by simp [he]⟩
      · right; left
        refine ⟨_, _, by simp [he], by simp only [he, if_false], remarks_of ho ?_ he⟩
        have h0 : st.rest = [] := file_end hr
        obtain ⟨k, ha, hfl⟩ := hi
        have : rs.length ≤ k := by
          have := ha.rest
          rw [h0] at this
          exact List.drop_eq_nil_iff.1 this.symm
        intro i r hik
        exact hfl i r (by omega)
    | _ => rw [hd] at hs; exact hs.elim
  | fail s =>
    rw [hr] at hs
    cases hd : parseD rules fuel none false (.ref .File) [] (startD rs) with
    | fail st =>
      rw [hd] at hs ho hm
      obtain ⟨k, hl, hfl, hno⟩ := noMatch_of (fn := fn) (FarthestR.congr hm (T := Unexpected rs) (by simp [Unexpected]))
      right; right
      by_cases he : st.errs = []
      · exact ⟨_, k, rfl, by simp only [he, if_true], hl, .inr (hno he)⟩
      · exact ⟨_, k, rfl, by simp only [he, if_false], hl, .inl ⟨_, remarks_of ho hfl he⟩⟩
    | _ => rw [hd] at hs; exact hs.elim

/-! ## Theorems -/

theorem reports_cases (fn : List Char) (b : List UInt8) :
    (∃ f, Parses b f ∧ Reports fn b (.ok f)) ∨
    (∃ t ls, Refuses b ∧ Reports fn b (.err t) ∧ Remarks fn (decode b) (decode b).length ls t) ∨
    ∃ t k, Refuses b ∧ Reports fn b (.err t) ∧ Last (decode b) k ∧
      ((∃ ls, Remarks fn (decode b) k ls t) ∨ NoMatch fn (decode b) k t) := by
  obtain ⟨N, hN⟩ := report_cases fn (decode b)
  have stays : ∀ {r}, report N fn (decode b) = some r → Reports fn b r :=
    fun h => ⟨N, fun fuel hf => report_mono hf h⟩
  have refuses : ∀ {e}, outcome (decode b) = .err e → Refuses b := by
    intro e h
    rw [refuses_iff]
    rintro ⟨f, hf⟩
    rw [parses_outcome, h] at hf
    cases hf
  rcases hN N (Nat.le_refl _) with ⟨f, h1, h2⟩ | ⟨t, ls, h1, h2, h3⟩ | ⟨t, k, h1, h2, h3⟩
  · exact .inl ⟨f, parses_outcome.2 h1, stays h2⟩
  · exact .inr (.inl ⟨t, ls, refuses h1, stays h2, h3⟩)
  · exact .inr (.inr ⟨t, k, refuses h1, stays h2, h3⟩)

theorem Reports.unique {fn : List Char} {b : List UInt8} {r r' : Report} (h : Reports fn b r) (h' : Reports fn b r') : r = r' := by
  obtain ⟨N, hN⟩ := h
  obtain ⟨M, hM⟩ := h'
  have h1 := hN (max N M) (by omega)
  rw [hM (max N M) (by omega)] at h1
  exact (Option.some.inj h1).symm

/-- **C66, every text gets one report.** A text that parses is reported as its file, and only that; any other text gets one error
text. Names of files, bytes that are no UTF-8 and bounds on nested calls make no difference to whether there is an error. -/
theorem C66_decided (fn : List Char) (b : List UInt8) :
    ∃ r, Reports fn b r ∧ (∀ r', Reports fn b r' → r' = r) ∧
      ((∃ f, r = .ok f ∧ Parses b f) ∨ ∃ t, r = .err t ∧ Refuses b) := by
  rcases reports_cases fn b with ⟨f, h1, h2⟩ | ⟨t, ls, h1, h2, _⟩ | ⟨t, k, h1, h2, _⟩
  · exact ⟨_, h2, fun r' h => h.unique h2, .inl ⟨f, rfl, h1⟩⟩
  · exact ⟨_, h2, fun r' h => h.unique h2, .inr ⟨t, rfl, h1⟩⟩
  · exact ⟨_, h2, fun r' h => h.unique h2, .inr ⟨t, rfl, h1⟩⟩

/-- **C66, what a report says.** An error text is either the report that no match was found, at the last place where
something unexpected is met and after valid UTF-8 only, or a list of different remarks about wrong bytes and wrong numbers, each
with its position. All wrong bytes of a text are remarked on if it reads as a file otherwise, and else at least those up to the last
place where something unexpected is met. -/
theorem C66_report {fn : List Char} {b : List UInt8} {t : List Char} (h : Reports fn b (.err t)) :
    ∃ k, (∃ ls, Remarks fn (decode b) k ls t ∧ (k = (decode b).length ∨ Last (decode b) k)) ∨ NoMatch fn (decode b) k t := by
  rcases reports_cases fn b with ⟨f, h1, h2⟩ | ⟨t', ls, h1, h2, h3⟩ | ⟨t', k, h1, h2, h3, h4⟩
  · cases h.unique h2
  · cases h.unique h2
    exact ⟨_, .inl ⟨ls, h3, .inl rfl⟩⟩
  · cases h.unique h2
    rcases h4 with ⟨ls, h4⟩ | h4
    · exact ⟨k, .inl ⟨ls, h4, .inr h3⟩⟩
    · exact ⟨k, .inr h4⟩

/-- **C66, offsets.** The offset of a position is a number of bytes: that many bytes come before the `k`-th rune. -/
theorem C66_offset (b : List UInt8) (k : Nat) :
    b.take (posAt (decode b) k).offset = ((decode b).take k).flatMap Rune.raw ∧
    b.drop (posAt (decode b) k).offset = ((decode b).drop k).flatMap Rune.raw := by
  have h : b = ((decode b).take k).flatMap Rune.raw ++ ((decode b).drop k).flatMap Rune.raw := by
    rw [← List.flatMap_append, List.take_append_drop, raw_decode]
  have hl : (posAt (decode b) k).offset = (((decode b).take k).flatMap Rune.raw).length := byteLength_raw _
  rw [hl]
  generalize ((decode b).take k).flatMap Rune.raw = x at h ⊢
  generalize ((decode b).drop k).flatMap Rune.raw = y at h ⊢
  subst h
  exact ⟨List.take_left, List.drop_left⟩

/-- The byte at the offset of a remark about a wrong byte is that byte. -/
theorem C66_byte {b : List UInt8} {k : Nat} {x : UInt8} (h : (decode b)[k]? = some (.bad x)) :
    b[(posAt (decode b) k).offset]? = some x := by
  have h1 := (C66_offset b k).2
  rw [List.getElem?_eq_some_iff] at h
  obtain ⟨hl, h⟩ := h
  rw [List.drop_eq_getElem_cons hl, h, List.flatMap_cons] at h1
  have h2 := congrArg (·[0]?) h1
  simpa [Rune.raw] using h2

/-- **C67, the report that no match was found.** Without remarks, an error text names the last place where something
unexpected is met and what would have been fine there, in order, each once, the end of the text last. Both are determined by the text alone. -/
theorem C67_no_match {fn : List Char} {rs : List Rune} {k k' : Nat} {t t' : List Char} (h : NoMatch fn rs k t) (h' : NoMatch fn rs k' t') :
    k' = k ∧ t' = t := by
  obtain ⟨w, hw⟩ := h.last.stuck
  obtain ⟨w', hw'⟩ := h'.last.stuck
  have h1 := h.last.last _ _ hw'
  have h2 := h'.last.last _ _ hw
  obtain rfl : k' = k := by omega
  refine ⟨rfl, ?_⟩
  obtain ⟨ws, eof, a, b, c, rfl⟩ := h.text
  obtain ⟨ws', eof', a', b', c', rfl⟩ := h'.text
  have hw : ws' = ws := by
    have hp : ws'.Perm ws := by
      rw [List.perm_ext_iff_of_nodup]
      · intro x; rw [b, b']
      · refine List.Pairwise.imp ?_ a'
        intro x y h e
        exact List.lt_irrefl _ (e ▸ h)
      · refine List.Pairwise.imp ?_ a
        intro x y h e
        exact List.lt_irrefl _ (e ▸ h)
    exact hp.eq_of_pairwise (le := (· < ·)) (fun x y _ _ h1 h2 => absurd (List.lt_trans h1 h2) (List.lt_irrefl _)) a' a
  have he : eof' = eof := by
    rw [Bool.eq_iff_iff, c, c']
  rw [hw, he]

/-- There is always a last place where something unexpected is met. -/
theorem C67_last (rs : List Rune) : ∃ k, Last rs k := by
  obtain ⟨N, hN⟩ := ev_eventually rules (.ref .File) [] ⟨rs, [], headBad rs⟩
  have hs := parseD_same (rs := rs) rules N none false (.ref .File) [] (startD rs) (start_inv rs)
  have hm := parseD_farthest (rs := rs) rules N none false (.ref .File) [] (startD rs) _ (start_inv rs) (start_farthest rs)
  rw [start_forget] at hs hm
  rw [hN N (Nat.le_refl _)] at hs
  replace hm := FarthestR.congr hm (T := Unexpected rs) (by simp [Unexpected])
  cases hd : parseD rules N none false (.ref .File) [] (startD rs) with
  | ok v env st =>
    rw [hd] at hm
    obtain ⟨k, h, _⟩ := noMatch_of (fn := []) hm
    exact ⟨k, h⟩
  | fail st =>
    rw [hd] at hm
    obtain ⟨k, h, _⟩ := noMatch_of (fn := []) hm
    exact ⟨k, h⟩
  | panic =>
    rw [hd] at hs
    cases hr : ev rules (.ref .File) [] ⟨rs, [], headBad rs⟩ <;> rw [hr] at hs <;> first | exact hs.elim | exact absurd hr (ev_ref_no_panic _ _ _)
  | timeout =>
    rw [hd] at hs
    cases hr : ev rules (.ref .File) [] ⟨rs, [], headBad rs⟩ <;> rw [hr] at hs <;> first | exact hs.elim | exact absurd hr (ev_ref_finishes _ _ _)

/-- A wrong number is none of the literals of the language. -/
theorem C68_wrong {cs : List Char} {why : String} (h : Wrong cs why) : ¬ ∃ v, IsLiteral cs v := by
  cases h with
  | syn c ds hc hd =>
    refine C48_octal_digit ?_ ?_
    · intro x hx
      rcases List.mem_cons.1 hx with rfl | hx
      · rcases hc with rfl | rfl <;> rfl
      · exact hd x hx
    · rcases hc with rfl | rfl
      · exact .inl List.mem_cons_self
      · exact .inr List.mem_cons_self
  | range hn hl =>
    cases hn with
    | dec c ds h0 hd => exact C48_decimal_large h0 hl
    | oct ds hne hd =>
      refine C48_octal_large ?_ hl
      intro x hx hc
      have := hd x hx
      rw [hc] at this
      exact absurd this (by decide)
    | hex ds hne hd => exact C48_hex_large hl

/-- **C68.** A text of valid UTF-8 without any wrong number in it is answered by its file or by the report that no match was
found; never by remarks. -/
theorem C68_clean {fn : List Char} {s : List Char} (hw : ∀ a cs z why, s = a ++ (cs ++ z) → ¬ Wrong cs why) :
    (∃ f, Parses (utf8 s) f ∧ Reports fn (utf8 s) (.ok f)) ∨
    ∃ k t, Reports fn (utf8 s) (.err t) ∧ NoMatch fn (s.map Rune.ok) k t := by
  have hd : decode (utf8 s) = s.map Rune.ok := decode_utf8 s
  have none : ∀ l, ¬ Remark fn (s.map Rune.ok) l := by
    intro l h
    cases h with
    | byte k b r h =>
      rw [List.getElem?_map] at h
      cases hk : s[k]? <;> rw [hk] at h <;> cases h
    | number k cs why hk hp hx =>
      rw [← List.map_drop, List.prefix_map_iff] at hp
      obtain ⟨p, ⟨z, hz⟩, he⟩ := hp
      obtain rfl := map_ok_inj he
      exact hw (s.take k) cs z why (by rw [hz, List.take_append_drop]) hx
  have no : ∀ k ls t, ¬ Remarks fn (s.map Rune.ok) k ls t := by
    intro k ls t h
    obtain ⟨l, hl⟩ := List.exists_mem_of_ne_nil _ h.nonempty
    exact none l (h.each l hl)
  have := reports_cases fn (utf8 s)
  rw [hd] at this
  rcases this with ⟨f, h1, h2⟩ | ⟨t, ls, h1, h2, h3⟩ | ⟨t, k, h1, h2, h3, ⟨ls, h4⟩ | h4⟩
  · exact .inl ⟨f, h1, h2⟩
  · exact absurd h3 (no _ _ _)
  · exact absurd h4 (no _ _ _)
  · exact .inr ⟨k, t, h2, h4⟩

/-! ## Cases

Reports of all kinds; no bound on nested calls from 80 on changes them. -/

set_option maxRecDepth 20000

/-- A missing semicolon: the report that no match was found, where a closing brace was met. -/
theorem exSemicolon : Reports "string".toList "struct x { u8 a }".toUTF8.toList
    (.err "string:1:17 (16): no match found, expected: \"/*\", \"//\", \";\", \"IN\", \"[\", \"\\n\" or [ \\t\\r]".toList) :=
  ⟨80, fun _ h => report_mono h (by decide +kernel)⟩

/-- The end of the text is among what would have been fine; without the name of a file. -/
theorem exStart : Reports [] "x".toUTF8.toList
    (.err ("1:1 (0): no match found, expected: \"/*\", \"//\", \"\\n\", \"const\", \"context\", \"extern\", \"struct\", " ++
      "\"trunnel\", [ \\t\\r] or EOF").toList) :=
  ⟨80, fun _ h => report_mono h (by decide +kernel)⟩

/-- Two wrong numbers, and a word at the end of the text that matches nothing. **The remarks are all that is reported**: that no match
was found is not said. -/
theorem exNumbers : Reports "string".toList "const A = 08; const B = 9223372036854775808; x".toUTF8.toList
    (.err ("string:1:11 (10): rule IntLiteral: strconv.ParseInt: parsing \"08\": invalid syntax\n" ++
      "string:1:25 (24): rule IntLiteral: strconv.ParseInt: parsing \"9223372036854775808\": value out of range").toList) :=
  ⟨80, fun _ h => report_mono h (by decide +kernel)⟩

/-- Wrong bytes in a comment. -/
theorem exBytes : Reports "string".toList ("const A = 1; // ".toUTF8.toList ++ [0xff, 0xfe] ++ "\nconst A = 2;".toUTF8.toList)
    (.err ("string:1:17 (16): rule SourceChar: invalid encoding\nstring:1:18 (17): rule SourceChar: invalid encoding").toList) :=
  ⟨80, fun _ h => report_mono h (by decide +kernel)⟩

/-- **A line feed counts to the line after it**: the text after `u` is reported as column 0 of line 2. -/
theorem exLineFeed : Reports "string".toList "struct x { u\n a; }".toUTF8.toList
    (.err "string:2:0 (12): no match found, expected: \"16\", \"32\", \"64\" or \"8\"".toList) :=
  ⟨80, fun _ h => report_mono h (by decide +kernel)⟩

/-- Not everything wrong is remarked on: the second wrong byte comes after the last place where something unexpected is met. -/
theorem exFirstByte : Reports "string".toList ("const ".toUTF8.toList ++ [0xff, 0xfe])
    (.err "string:1:7 (6): rule Whitespace: invalid encoding".toList) :=
  ⟨80, fun _ h => report_mono h (by decide +kernel)⟩

example : Refuses "struct x { u8 a }".toUTF8.toList := by
  obtain ⟨r, h1, h2, ⟨f, rfl, _⟩ | ⟨t, rfl, h⟩⟩ := C66_decided "string".toList "struct x { u8 a }".toUTF8.toList
  · cases exSemicolon.unique h1
  · exact h

/-- The position in the report of `exSemicolon`. -/
example : posAt (decode "struct x { u8 a }".toUTF8.toList) 16 = ⟨1, 17, 16⟩ := by decide +kernel

/-- Positions of a text with characters of two bytes, and at its end. -/
example : (List.range 5).map (posAt (decode "é\nü".toUTF8.toList)) = [⟨1, 1, 0⟩, ⟨2, 0, 2⟩, ⟨2, 1, 3⟩, ⟨2, 2, 5⟩, ⟨2, 2, 5⟩] := by decide +kernel

example : ("const A = 1; // ".toUTF8.toList ++ [0xff, 0xfe])[(posAt (decode ("const A = 1; // ".toUTF8.toList ++ [0xff, 0xfe])) 17).offset]? = some 0xfe :=
  C66_byte (by decide +kernel)

theorem wrong_digit {cs : List Char} {why : String} (h : Wrong cs why) : ∃ c ∈ cs, c.isDigit = true := by
  cases h with
  | syn c ds hc hd => exact ⟨'0', List.mem_cons_self, rfl⟩
  | range hn hl =>
    cases hn with
    | dec c ds h0 hd => exact ⟨c, List.mem_cons_self, hd c List.mem_cons_self⟩
    | oct ds hne hd => exact ⟨'0', List.mem_cons_self, rfl⟩
    | hex ds hne hd => exact ⟨'0', List.mem_cons_self, rfl⟩

/-- A text without digits. -/
example : ∃ k t, Reports [] (utf8 "struct x { nulterm a }".toList) (.err t) ∧ NoMatch [] ("struct x { nulterm a }".toList.map Rune.ok) k t := by
  have hw : ∀ a cs z why, "struct x { nulterm a }".toList = a ++ (cs ++ z) → ¬ Wrong cs why := by
    intro a cs z why he hx
    obtain ⟨c, hc, h⟩ := wrong_digit hx
    have hm : c ∈ "struct x { nulterm a }".toList := by rw [he]; simp [hc]
    have : ∀ c ∈ "struct x { nulterm a }".toList, c.isDigit = false := by decide
    rw [this c hm] at h
    cases h
  rcases C68_clean (fn := []) hw with ⟨f, h, _⟩ | h
  · exfalso
    obtain ⟨N, hN⟩ := h
    have h1 := C49_deterministic (hN N (Nat.le_refl _)) (show parseBytes 60 (utf8 "struct x { nulterm a }".toList) = some (.err "no match") by decide +kernel)
    cases h1
  · exact h

example : Wrong "9223372036854775808".toList "value out of range" :=
  .range (b := 10) (ds := "9223372036854775808".toList) (.dec '9' "223372036854775808".toList (by decide) (by decide)) (by decide +kernel)

example : Wrong "0x8000000000000000".toList "value out of range" :=
  .range (.hex "8000000000000000".toList (by decide) (by decide)) (by decide +kernel)

end Verif.Props
