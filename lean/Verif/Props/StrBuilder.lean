import Verif.Proof.StrBuilder
/-!
# Properties C15, C16, C43 (StrBuilder)
-/
namespace Verif.SB

/-- A call that changes a builder. Texts are arbitrary bytes; C strings are given by their characters and whatever lies
after the terminator in their buffer. -/
inductive Op where
  | char (x : UInt8)
  | cstr (s rest : Bytes)
  | str (s : Bytes)
  | builder (d : Bytes)
  | null (n : Nat)
  | clear
  | trim (cut rest : Bytes)
  | strip
  deriving Repr, DecidableEq

/-- Perform a call. `builder d` appends another builder that was made from the text `d`. -/
def step (sb : SB) : Op → Res SB
  | .char x => (sb.appendChar x).bind fun p => .ok p.2
  | .cstr s rest => (sb.appendCStr (s ++ 0 :: rest)).bind fun p => .ok p.2
  | .str s => (sb.appendStr s).bind fun p => .ok p.2
  | .builder d => (makeStr d).bind fun o => (sb.appendString o).bind fun p => .ok p.2
  | .null n => (sb.appendLen none n).bind fun p => .ok p.2
  | .clear => .ok sb.clear
  | .trim cut rest => sb.trim (cut ++ 0 :: rest)
  | .strip => sb.stripSpace

def run : SB → List Op → Res SB
  | sb, [] => .ok sb
  | sb, op :: ops => (step sb op).bind fun sb' => run sb' ops

/-- Specification: the longest prefix and suffix of `cut` characters (and NULs) removed. -/
def trimSpec (cut : Bytes) (c : Bytes) : Bytes :=
  let p := fun b => decide (b ∈ cut ∨ b = 0)
  (((c.dropWhile p).reverse).dropWhile p).reverse

/-- Specification: the effect on the text, and whether the text is known to be followed by a NUL (`clear` forgets it). -/
def specStep : Bytes × Bool → Op → Bytes × Bool
  | (c, _), .char x => (c ++ [x], true)
  | (c, _), .cstr s _ => (c ++ s, true)
  | (c, _), .str s => (c ++ s, true)
  | (c, _), .builder d => (c ++ d, true)
  | (c, t), .null _ => (c, t)
  | (_, _), .clear => ([], false)
  | (c, _), .trim cut _ => (trimSpec cut c, true)
  | (c, _), .strip => (c.filter fun b => b ∉ [(32 : UInt8), 9, 10, 13, 12, 11], true)

/-- Preconditions: C strings end at their NUL; `strip_space` works on a NUL-terminated text without NULs. -/
def Legal (st : Bytes × Bool) : Op → Prop
  | .cstr s _ => (0 : UInt8) ∉ s
  | .trim cut _ => (0 : UInt8) ∉ cut
  | .strip => st.2 = true ∧ (0 : UInt8) ∉ st.1
  | _ => True

def LegalRun : Bytes × Bool → List Op → Prop
  | _, [] => True
  | st, op :: ops => Legal st op ∧ LegalRun (specStep st op) ops

theorem space_iff (b : UInt8) : (!charIsSpace b) = decide (b ∉ [(32 : UInt8), 9, 10, 13, 12, 11]) := by
  revert b; apply CStr.forall_u8; decide +kernel

theorem trimSpec_eq (cut c : Bytes) : trimSpec cut c = trimmed (cuts cut) c := by
  have : (fun b => decide (b ∈ cut ∨ b = 0)) = cuts cut := by
    funext b; rw [Bool.eq_iff_iff]; simp [cuts]
  simp only [trimSpec, trimmed, this]

theorem step_ok {sb : SB} {st : Bytes × Bool} (h : Holds sb st.1) (ht : st.2 = true → Terminated sb) (op : Op)
    (hl : Legal st op) :
    ∃ sb', step sb op = .ok sb' ∧ Holds sb' (specStep st op).1 ∧ ((specStep st op).2 = true → Terminated sb') := by
  cases op with
  | char x => obtain ⟨s', e, a, b⟩ := appendChar_holds h x; exact ⟨s', by simp [step, e], a, fun _ => b⟩
  | cstr s r => obtain ⟨s', e, a, b⟩ := appendCStr_holds h s r hl; exact ⟨s', by simp [step, e], a, fun _ => b⟩
  | str s => obtain ⟨s', e, a, b⟩ := appendStr_holds h s; exact ⟨s', by simp [step, e], a, fun _ => b⟩
  | builder d =>
    obtain ⟨o, eo, ho, _⟩ := makeLength_holds d d.length (Nat.le_refl _)
    rw [List.take_length] at ho
    obtain ⟨s', e, a, b⟩ := appendString_holds h ho
    exact ⟨s', by simp [step, makeStr, eo, e], a, fun _ => b⟩
  | null n => exact ⟨sb, by simp [step, appendLen], h, ht⟩
  | clear => exact ⟨sb.clear, rfl, clear_holds h, by simp [specStep]⟩
  | trim cut rest =>
    obtain ⟨s', e, a, b⟩ := trim_holds h cut rest hl
    exact ⟨s', e, by simpa only [specStep, trimSpec_eq] using a, fun _ => b⟩
  | strip =>
    obtain ⟨s', e, a, b⟩ := stripSpace_holds h (ht hl.1) hl.2
    have hf : (fun b => !charIsSpace b) = (fun b => decide (b ∉ [(32 : UInt8), 9, 10, 13, 12, 11])) := funext space_iff
    rw [hf] at a
    exact ⟨s', e, a, fun _ => b⟩

theorem run_ok : ∀ (ops : List Op) (sb : SB) (st : Bytes × Bool), Holds sb st.1 → (st.2 = true → Terminated sb) →
    LegalRun st ops →
    ∃ sb', run sb ops = .ok sb' ∧ Holds sb' (ops.foldl specStep st).1 ∧
      ((ops.foldl specStep st).2 = true → Terminated sb') := by
  intro ops
  induction ops with
  | nil => intro sb st h ht _; exact ⟨sb, rfl, h, ht⟩
  | cons op ops ih =>
    intro sb st h ht hl
    obtain ⟨s1, e1, h1, t1⟩ := step_ok h ht op hl.1
    obtain ⟨s', e', h', t'⟩ := ih s1 _ h1 t1 hl.2
    exact ⟨s', by simp [run, e1, e'], h', t'⟩

/-- C15 (and C16): a builder made from any text, after any legal history of appends of characters, C strings, `Str`s and
other builders (embedded NULs allowed), null appends, `clear`, `trim` and `strip_space`, with whatever reallocations this
causes: no access leaves the allocated block, no unwritten cell is read, `length` is the number of bytes of the text the
specification gives, `length <= capacity`, reading the builder gives exactly that text, and unless the builder was just
cleared a NUL follows it. -/
theorem C15_history (init : Bytes) (ops : List Op) (hl : LegalRun (init, true) ops) :
    ∃ sb0 sb, makeStr init = .ok sb0 ∧ run sb0 ops = .ok sb ∧
      sb.len = (ops.foldl specStep (init, true)).1.length ∧ sb.len ≤ sb.cap ∧
      readN sb.data 0 sb.len = .ok (ops.foldl specStep (init, true)).1 ∧
      ((ops.foldl specStep (init, true)).2 = true → read sb.data sb.len = .ok 0) := by
  obtain ⟨sb0, e0, h0, t0⟩ := makeLength_holds init init.length (Nat.le_refl _)
  rw [List.take_length] at h0
  obtain ⟨sb, e, h, t⟩ := run_ok ops sb0 (init, true) h0 (fun _ => t0) hl
  refine ⟨sb0, sb, e0, e, h.len, h.cap, h.readAll, fun hf => ?_⟩
  have := t hf
  unfold Terminated at this
  simp [read, this]

/-- C15: in particular a sequence of appends is the concatenation. -/
theorem C15_appends_concatenate (init : Bytes) (pieces : List Bytes) :
    ∃ sb0 sb, makeStr init = .ok sb0 ∧ run sb0 (pieces.map Op.str) = .ok sb ∧
      readN sb.data 0 sb.len = .ok (init ++ pieces.flatten) ∧ read sb.data sb.len = .ok 0 := by
  have hleg : ∀ (l : List Bytes) (st : Bytes × Bool), LegalRun st (l.map Op.str) := by
    intro l; induction l with
    | nil => intro _; trivial
    | cons p l ih => intro st; exact ⟨trivial, ih _⟩
  have hsp : ∀ (l : List Bytes) (c : Bytes), (l.map Op.str).foldl specStep (c, true) = (c ++ l.flatten, true) := by
    intro l; induction l with
    | nil => intro c; simp
    | cons p l ih => intro c; simp [specStep, ih]
  obtain ⟨sb0, sb, e0, e, _, _, hr, hz⟩ := C15_history init (pieces.map Op.str) (hleg _ _)
  rw [hsp] at hr hz
  exact ⟨sb0, sb, e0, e, hr, hz rfl⟩

/-- C15: every append of a non-null source reports success, a null source reports failure and changes nothing. -/
theorem C15_append_result (sb : SB) (c : Bytes) (h : Holds sb c) (s : Bytes) (n : Nat) :
    (∃ sb', sb.appendStr s = .ok (true, sb')) ∧ sb.appendLen none n = .ok (false, sb) :=
  ⟨let ⟨s', e, _⟩ := appendStr_holds h s; ⟨s', e⟩, rfl⟩

/-- C15, refuted for `strbuilder_clear`: it leaves the old characters in place without a terminator, so the C string at
the builder's address is still the old text. -/
theorem C15_clear_terminator_refuted :
    ∃ sb, makeStr b!"abc" = .ok sb ∧ sb.clear.len = 0 ∧ sb.clear.cView = .ok b!"abc" := ⟨_, rfl, rfl, rfl⟩

/-- C15, refuted: `strip_space` right after `clear` brings the cleared text back. -/
theorem C15_clear_then_strip_refuted :
    ∃ sb sb', makeStr b!"a b" = .ok sb ∧ sb.clear.stripSpace = .ok sb' ∧ sb'.len = 2 ∧
      readN sb'.data 0 2 = .ok b!"ab" := ⟨_, _, rfl, rfl, rfl, rfl⟩

/-- C15, refuted for appending a builder to itself: any builder as it comes from `strbuilder_make_str` with a nonempty
text has no spare room, so the append reads the source after its block has been released. -/
theorem C15_append_self_refuted (s : Bytes) (hs : s ≠ []) :
    ∃ sb, makeStr s = .ok sb ∧ sb.appendSelf = .ub := by
  obtain ⟨sb, e, h, _⟩ := makeLength_holds s s.length (Nat.le_refl _)
  rw [List.take_length] at h
  refine ⟨sb, e, ?_⟩
  have hcap : sb.cap = s.length := by
    have e' : makeLength (some s) s.length = .ok sb := e
    unfold makeLength at e'
    simp only [Res.bind_eq_ok] at e'
    obtain ⟨_, _, _, _, h3⟩ := e'
    simp at h3
    rw [← h3]
  have hlen := h.len
  have : 0 < s.length := List.length_pos_iff.mpr hs
  unfold appendSelf availSpace
  rw [if_neg (by omega)]

/-- C16: `strbuilder_trim` removes exactly the longest prefix and suffix of cut characters (NUL counts as one). -/
theorem C16_trim (init cut rest : Bytes) (h0 : (0 : UInt8) ∉ cut) :
    ∃ sb0 sb, makeStr init = .ok sb0 ∧ sb0.trim (cut ++ 0 :: rest) = .ok sb ∧
      readN sb.data 0 sb.len = .ok (trimSpec cut init) ∧ read sb.data sb.len = .ok 0 := by
  obtain ⟨sb0, sb, e0, e, _, _, hr, hz⟩ := C15_history init [.trim cut rest] ⟨h0, trivial⟩
  simp only [run, step, Res.bind_eq_ok] at e
  obtain ⟨x, hx, hx2⟩ := e
  injection hx2 with hx2
  subst hx2
  exact ⟨sb0, x, e0, hx, hr, hz rfl⟩

/-- C16: what `trimSpec` means: the text is a cut part, the result, a cut part; the result neither begins nor ends with a
cut character. -/
theorem C16_trimSpec_meaning (cut c : Bytes) :
    ∃ a b, c = a ++ trimSpec cut c ++ b ∧ (∀ x ∈ a, x ∈ cut ∨ x = 0) ∧ (∀ x ∈ b, x ∈ cut ∨ x = 0) ∧
      (∀ x, (trimSpec cut c).head? = some x → ¬ (x ∈ cut ∨ x = 0)) ∧
      (∀ x, (trimSpec cut c).getLast? = some x → ¬ (x ∈ cut ∨ x = 0)) := by
  let p : UInt8 → Bool := fun b => decide (b ∈ cut ∨ b = 0)
  have hp : ∀ (l : Bytes), ∀ x ∈ l.takeWhile p, x ∈ cut ∨ x = 0 := by
    intro l x hx
    have := List.all_eq_true.mp (List.all_takeWhile (p := p) (l := l)) x hx
    simpa [p] using this
  have hd : ∀ (l : Bytes) (x : UInt8), (l.dropWhile p).head? = some x → ¬ (x ∈ cut ∨ x = 0) := by
    intro l x hx
    have := List.head?_dropWhile_not p l
    rw [hx] at this
    simpa [p] using this
  have hts : trimSpec cut c = (((c.dropWhile p).reverse).dropWhile p).reverse := rfl
  have h1 : c = c.takeWhile p ++ c.dropWhile p := List.takeWhile_append_dropWhile.symm
  have h2 : c.dropWhile p = (((c.dropWhile p).reverse).dropWhile p).reverse ++
      (((c.dropWhile p).reverse).takeWhile p).reverse := by
    rw [← List.reverse_append, List.takeWhile_append_dropWhile, List.reverse_reverse]
  refine ⟨c.takeWhile p, (((c.dropWhile p).reverse).takeWhile p).reverse, ?_, hp c, ?_, ?_, ?_⟩
  · rw [hts, List.append_assoc, ← h2, ← h1]
  · intro x hx; exact hp _ x (List.mem_reverse.mp hx)
  · intro x hx
    apply hd c x
    rw [h2]
    rw [hts] at hx
    rw [List.head?_append, hx]; rfl
  · intro x hx
    rw [hts, List.getLast?_reverse] at hx
    exact hd _ x hx

/-- C16: `strbuilder_strip_space` removes exactly the whitespace characters and keeps the order of the others, for every
NUL-free text. -/
theorem C16_strip_space (init : Bytes) (h0 : (0 : UInt8) ∉ init) :
    ∃ sb0 sb, makeStr init = .ok sb0 ∧ sb0.stripSpace = .ok sb ∧
      readN sb.data 0 sb.len = .ok (init.filter fun b => b ∉ [(32 : UInt8), 9, 10, 13, 12, 11]) := by
  obtain ⟨sb0, sb, e0, e, _, _, hr, _⟩ := C15_history init [.strip] ⟨⟨rfl, h0⟩, trivial⟩
  simp only [run, step, Res.bind_eq_ok] at e
  obtain ⟨x, hx, hx2⟩ := e
  injection hx2 with hx2
  subst hx2
  exact ⟨sb0, x, e0, hx, hr⟩

/-- C16, refuted for `strbuilder_skip_line`: it keeps as many characters as it should drop. -/
theorem C16_skip_line_refuted :
    ∃ sb sb', makeStr b!"ab\ncdefgh" = .ok sb ∧ sb.skipLine = .ok sb' ∧ readN sb'.data 0 sb'.len = .ok b!"\nc" :=
  ⟨_, _, rfl, rfl, rfl⟩

/-- C43, specification: the visible marker of a character. -/
def marker (c : UInt8) : Bytes :=
  match c with
  | 32 => b!"·" | 9 => b!"→" | 10 => b!"↵" | 13 => b!"⏎" | 11 => b!"⇕" | 12 => b!"⌂" | c => [c]

theorem marker_eq (c : UInt8) : marker c =
    if c = 32 then b!"·" else if c = 9 then b!"→" else if c = 10 then b!"↵" else if c = 13 then b!"⏎"
    else if c = 11 then b!"⇕" else if c = 12 then b!"⌂" else [c] := by
  revert c; apply CStr.forall_u8; decide +kernel

theorem visualizeLoop_holds : ∀ (cs : Bytes) (r : SB) (c : Bytes), Holds r c → 
    ∃ r', visualizeLoop cs r = .ok r' ∧ Holds r' (c ++ cs.flatMap marker) := by
  intro cs
  induction cs with
  | nil => intro r c h; exact ⟨r, rfl, by simpa using h⟩
  | cons x cs ih =>
    intro r c h
    have hap : ∃ b r1, (if x = 32 then r.appendStr b!"·" else if x = 9 then r.appendStr b!"→"
        else if x = 10 then r.appendStr b!"↵" else if x = 13 then r.appendStr b!"⏎" else if x = 11 then r.appendStr b!"⇕"
        else if x = 12 then r.appendStr b!"⌂" else r.appendChar x) = .ok (b, r1) ∧ Holds r1 (c ++ marker x) := by
      rw [marker_eq]
      split
      · obtain ⟨s, e, a, _⟩ := appendStr_holds h b!"·"; exact ⟨_, s, e, a⟩
      split
      · obtain ⟨s, e, a, _⟩ := appendStr_holds h b!"→"; exact ⟨_, s, e, a⟩
      split
      · obtain ⟨s, e, a, _⟩ := appendStr_holds h b!"↵"; exact ⟨_, s, e, a⟩
      split
      · obtain ⟨s, e, a, _⟩ := appendStr_holds h b!"⏎"; exact ⟨_, s, e, a⟩
      split
      · obtain ⟨s, e, a, _⟩ := appendStr_holds h b!"⇕"; exact ⟨_, s, e, a⟩
      split
      · obtain ⟨s, e, a, _⟩ := appendStr_holds h b!"⌂"; exact ⟨_, s, e, a⟩
      · obtain ⟨s, e, a, _⟩ := appendChar_holds h x; exact ⟨_, s, e, a⟩
    obtain ⟨b, r1, e1, h1⟩ := hap
    obtain ⟨r', e', h'⟩ := ih r1 _ h1
    refine ⟨r', ?_, by simpa using h'⟩
    unfold visualizeLoop
    rw [e1]; exact e'

/-- C43: `visualize_whitespace` of any builder replaces each whitespace character by its marker and keeps every other
byte; the source is unchanged (it is not written). -/
theorem C43_visualize (sb : SB) (c : Bytes) (h : Holds sb c) :
    ∃ r, sb.visualizeWhitespace = .ok r ∧ readN r.data 0 r.len = .ok (c.flatMap marker) := by
  unfold visualizeWhitespace
  rw [h.readAll]
  have h0 : Holds (makeReserve (sb.len * 2)) [] := ⟨rfl, Nat.zero_le _, _, rfl, by simp [makeReserve]⟩
  obtain ⟨r, e, hr⟩ := visualizeLoop_holds c _ [] h0
  exact ⟨r, e, by simpa using hr.readAll⟩

theorem joinLoop_holds (glue grest : Bytes) (hg : (0 : UInt8) ∉ glue) (n : Nat) : ∀ (parts : List Bytes) (idx : Nat) (r : SB)
    (c : Bytes), (∀ p ∈ parts, (0 : UInt8) ∉ p) → idx + parts.length = n → Holds r c →
    ∃ r', joinLoop (glue ++ 0 :: grest) n (parts.map (· ++ [0])) idx r = .ok r' ∧ Holds r' (c ++ glue.intercalate parts) := by
  intro parts
  induction parts with
  | nil => intro idx r c _ _ h; exact ⟨r, rfl, by simpa [List.intercalate] using h⟩
  | cons p ps ih =>
    intro idx r c hp hn h
    obtain ⟨r1, e1, h1, _⟩ := appendCStr_holds h p [] (hp p List.mem_cons_self)
    simp only [List.map_cons, joinLoop, e1, Res.ok_bind]
    simp only [List.length_cons] at hn
    cases ps with
    | nil =>
      rw [if_neg (by simp at hn; omega)]
      exact ⟨r1, rfl, by simpa [List.intercalate] using h1⟩
    | cons q ps =>
      rw [if_pos (by simp at hn; omega)]
      obtain ⟨r2, e2, h2, _⟩ := appendCStr_holds h1 glue grest hg
      simp only [e2, Res.ok_bind]
      obtain ⟨r', e', h'⟩ := ih (idx+1) r2 _ (fun x hx => hp x (List.mem_cons_of_mem _ hx)) (by omega) h2
      refine ⟨r', e', ?_⟩
      have : glue.intercalate (p :: q :: ps) = p ++ glue ++ glue.intercalate (q :: ps) := by
        simp [List.intercalate, List.intersperse]
      rw [this]
      simpa [List.append_assoc] using h'

/-- C43: `strbuilder_join` of any number of C strings is the parts separated by the glue. -/
theorem C43_join (parts : List Bytes) (glue grest : Bytes) (hp : ∀ p ∈ parts, (0 : UInt8) ∉ p) (hg : (0 : UInt8) ∉ glue) :
    ∃ r, join (parts.map (· ++ [0])) (glue ++ 0 :: grest) = .ok r ∧ readN r.data 0 r.len = .ok (glue.intercalate parts) := by
  unfold join
  obtain ⟨r0, e0, h0, _⟩ := makeLength_holds [0] 0 (by simp)
  have e0' : makeCStr (some [0]) = .ok r0 := by simpa [makeCStr, CStr.len] using e0
  obtain ⟨r, e, h⟩ := joinLoop_holds glue grest hg (parts.map (· ++ [0])).length parts 0 r0 [] hp (by simp) (by simpa using h0)
  exact ⟨r, by rw [e0']; exact e, by simpa using h.readAll⟩

/-- Non-vacuity: a history with growth, clear, trim and strip. -/
example : LegalRun (b!"  x", true) [.str b!" y ", .trim b!" " [], .char 33, .cstr b!"zz" b!"junk", .strip, .clear, .builder b!"q"] := by
  refine ⟨trivial, ?_, trivial, ?_, ⟨rfl, by decide⟩, trivial, trivial, trivial⟩
  · show (0 : UInt8) ∉ b!" "; decide
  · show (0 : UInt8) ∉ b!"zz"; decide

example : ∃ r, join [b!"a" ++ [0], b!"b" ++ [0]] (b!", " ++ [0]) = .ok r ∧ readN r.data 0 r.len = .ok b!"a, b" :=
  C43_join [b!"a", b!"b"] b!", " [] (by decide) (by decide)

end Verif.SB
