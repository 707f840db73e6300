import Verif.Proof.RoundTop
import Verif.Proof.RoundAgain
import Verif.Props.ReadGlobal
/-!
# C59: parsing what was printed

Variables, functions, names for types and enums come back as they are. Classes, structs, unions, namespaces, linkage blocks and files come back with an empty line
more in front of every closing brace: nothing else changes, and it happens in every round.
-/
namespace Verif.Round
open Verif.Lex (Tok Pos Macros Piece toksAt)
open Verif.Parse

variable {w : World}

theorem Fresh.calm {c : Bytes} {ts : List Tok} {ms : Macros} (h : Fresh w c) (hl : Lex.lex true w.env.ms c = .ok (some (ts, ms))) : Calm ts ([] ++ w.env.cells.drop (ts ++ []).length) := by
  obtain ⟨h1, h2⟩ := h ts ⟨ms, hl⟩
  rw [List.append_nil, List.nil_append]
  intro u _ _
  cases hc : w.env.cells.drop ts.length with
  | nil => rw [hc] at h1; simp at h1
  | cons t l => exact ⟨t, rfl, fun hh => (h2 t (by rw [hc]; rfl)).1 hh.1⟩

theorem no_return {c : Bytes} (h : 13 ∉ c) : Lex.Crlf c := by
  intro a b hh
  exact absurd (by rw [hh]; simp) h

/-! ## Declarations come back as they are -/

/-- C59: variables. -/
theorem C59_variable {v : Var} (hr : w.Ready) (h : v.Ok w.env.ms varSpecs) : Reprints w parse_variable v.text v.text := by
  obtain ⟨q, hq⟩ := var_starts (k := []) h
  rw [List.append_nil] at hq
  have hw := written_var (g := []) h
  have hl := lex_pieces (g := []) (by intro x hx; cases hx) (var_run (r := []) .nil h varSpecs_readable).1 hq
  rw [hw, List.nil_append, List.nil_append] at hl
  have ho := on_all (g := []) (l := varP [] v) (e := [0])
  rw [hw, List.nil_append, List.nil_append] at ho
  exact ⟨_, C56_variable (more := []) hr ⟨_, by rw [List.append_nil]; exact hl⟩ (On.var h ho) fun u _ t ht => by cases ht⟩

/-- C59: functions, declared or defined. -/
theorem C59_function {f : Fn} (hr : w.Ready) (h : f.Ok w.env.ms fnSpecs) (hf : Fresh w f.text) : Reprints w parse_function f.text f.text := by
  obtain ⟨q, hq⟩ := fn_starts (k := []) h
  rw [List.append_nil] at hq
  have hl := lex_pieces (g := fnLead f) (fnLead_spaces f) (fn_run (r := []) .nil h fnSpecs_readable).1 hq
  rw [fn_text h] at hl
  have ho := on_all (g := fnLead f) (l := fnP [] f) (e := [0])
  rw [fn_text h] at ho
  obtain ⟨t, h1, h2⟩ := On.fn h ho
  exact ⟨_, C56_function (more := []) hr (by rw [List.append_nil]; exact hl) h1 h2 (hf.calm hl)⟩

theorem alias_lexed {ms : Macros} {a : Alias} (h : a.Ok ms) : ∃ t tl, toksAt (Pos.after ⟨0, 1, 1⟩ []) (aliasP [] a) = t :: tl ∧ Lex.lex true ms a.text = .ok (some (t :: tl, ms)) ∧
    AliasToks (a.text ++ [0]) a.text (t :: tl) := by
  obtain ⟨q, hq⟩ := alias_starts (k := []) h
  rw [List.append_nil] at hq
  have hw := written_alias (g := []) h
  have hl := lex_pieces (g := []) (by intro x hx; cases hx) (alias_run (r := []) .nil h).1 hq
  rw [hw, List.nil_append, List.nil_append] at hl
  have ho := on_all (g := []) (l := aliasP [] a) (e := [0])
  rw [hw, List.nil_append, List.nil_append] at ho
  have ha := On.alias h ho
  cases hp : aliasP [] a with
  | nil => cases a <;> cases hp
  | cons x l =>
    rw [hp] at hl ha
    exact ⟨_, _, rfl, hl, ha⟩

/-- C59: `using`. -/
theorem C59_using {a : Alias} (hr : w.Ready) (h : a.Ok w.env.ms) (hu : ∀ t n l, a ≠ .typedef t n l) (hf : Fresh w a.text) : Reprints w parse_using a.text a.text := by
  obtain ⟨t, tl, h1, h2, h3⟩ := alias_lexed h
  have ht : t.type = .Decl_Using := by
    cases a with
    | named n t l => cases h1; rfl
    | space n => cases h1; rfl
    | typedef t n l => exact absurd rfl (hu t n l)
  exact ⟨_, C56_using (more := []) hr (by rw [List.append_nil]; exact h2) h3 ht (hf.calm h2)⟩

/-- C59: `typedef`. -/
theorem C59_typedef {t : Ty} {n : Bytes} {l : List (List Piece)} (hr : w.Ready) (h : (Alias.typedef t n l).Ok w.env.ms) (hf : Fresh w (Alias.typedef t n l).text) :
    Reprints w parse_typedef (Alias.typedef t n l).text (Alias.typedef t n l).text := by
  obtain ⟨t, tl, h1, h2, h3⟩ := alias_lexed h
  have ht : t.type = .Decl_Typedef := by cases h1; rfl
  exact ⟨_, C56_typedef (more := []) hr (by rw [List.append_nil]; exact h2) h3 ht (hf.calm h2)⟩

/-- C59: enums. -/
theorem C59_enum {e : Enum} (hr : w.Ready) (h : e.Ok w.env.ms) (hf : Fresh w e.text) : Reprints w parse_enum e.text e.text := by
  have hw := written_enum (g := []) h
  have hl := lex_pieces (g := []) (l := enumP [] e) (by intro x hx; cases hx) (enum_run (r := []) .nil h).1 ⟨rfl, rfl, by intro hh; cases hh⟩
  rw [hw, List.nil_append, List.nil_append] at hl
  have ho := on_all (g := []) (l := enumP [] e) (e := [0])
  rw [hw, List.nil_append, List.nil_append] at ho
  exact ⟨_, C56_enum (more := []) hr (by rw [List.append_nil]; exact hl) (On.enum h ho) (hf.calm hl)⟩

/-! ## Braces -/

theorem file_lexed {ms : Macros} {p : Place} {x : Body} (h : Body.Ok ms p true x) (hp : p ≠ .record) (h0 : x ≠ .nil) : ∃ pos, Lex.lex true ms x.text = .ok (some (toksAt pos (fileP x), ms)) ∧
    On (x.text ++ [0]) pos (fileP x) := by
  obtain ⟨q, hq⟩ := file_start h h0
  have hl := lex_pieces (fileGap_spaces x) (file_sits h hp) hq
  have ho := on_all (g := fileGap x) (l := fileP x) (e := [0])
  rw [← written_file h hp] at hl ho
  exact ⟨_, hl, ho⟩

/-- C59: files. Every pair of braces with something in it gets an empty line. -/
theorem C59_file {x : Body} (hr : w.Ready) (hs : Spelled w.env w.heap) (h : Body.Ok w.env.ms .file true x) (h0 : x ≠ .nil) (hc : 13 ∉ x.text) (hf : Fresh w x.text) :
    Reprints w parse_global_body x.text x.again.text := by
  obtain ⟨pos, hl, ho⟩ := file_lexed h (by intro hh; cases hh) h0
  exact ⟨_, C56_global_body hr hs (no_return hc) hl (On.file h ho) (no_ctor ho (file_sits h (by intro hh; cases hh)) (file_tame h)) (hf _ ⟨_, hl⟩)⟩

theorem record_toks {c : Bytes} {ms : Macros} {pos : Pos} {l : List Piece} {g : Bytes} {k : RecordKind} {x : Bytes} {i : Body} (hi : Body.Ok ms .record true i)
    (ho : On c pos (l ++ openP (g ++ b!"\n") :: (bodyP true true i ++ closeP (endGap true (bodyEnd true i)) [] :: [semiP])))
    (hh : RecordHead c k x (toksAt pos l)) :
    RecordToks ms c k (x ++ b!"\n{\n" ++ (i.again.closed true).text ++ b!"\n};\n") (toksAt pos (l ++ openP (g ++ b!"\n") :: (bodyP true true i ++ closeP (endGap true (bodyEnd true i)) [] :: [semiP]))) := by
  obtain ⟨po, pi, pz, e1, e2, e3, e4⟩ := toks_block (pos := pos) (l := l) (o := openP (g ++ b!"\n")) (inner := bodyP true true i)
    (z := closeP (endGap true (bodyEnd true i)) []) (k := [semiP])
  rw [e4]
  have h2 := ho.right
  rw [← e1] at h2
  have h3 := h2.tail
  rw [← e2] at h3
  have h4 := h3.right
  rw [← e3] at h4
  exact .mk hh h2.tokIs (On.members hi true _ h3.left) h4.tokIs h4.tail.tokIs

/-- C59: classes. -/
theorem C59_class {n : Qual} {f : Bool} {i : Body} (hr : w.Ready) (hs : Spelled w.env w.heap) (hn : n.Ok w.env.ms) (hi : Body.Ok w.env.ms .record true i)
    (hf : Fresh w (Body.record (.named .cls n f) i .nil).text) :
    Reprints w parse_class (Body.record (.named .cls n f) i .nil).text (Body.record (.named .cls n f) i .nil).again.text := by
  have h : Body.Ok w.env.ms .file true (.record (.named .cls n f) i .nil) := .record hn hi .nil
  obtain ⟨pos, hl, ho⟩ := file_lexed h (by intro hh; cases hh) (by intro hh; cases hh)
  rw [show (Body.record (.named .cls n f) i .nil).again.text = (RecHead.named .cls n f).text ++ b!"\n{\n" ++ (i.again.closed true).text ++ b!"\n};\n" by simp [Body.again, Body.text]]
  have hk := On.recHead (h := .named .cls n f) hn (On.left (l := recHeadP [] (.named .cls n f)) ho)
  exact ⟨_, C56_class (more := []) hr hs (by rw [List.append_nil]; exact hl) (record_toks hi ho hk) (hf.calm hl)⟩

/-- C59: structs. -/
theorem C59_struct {h : RecHead} {i : Body} (hr : w.Ready) (hs : Spelled w.env w.heap) (hh : h.Ok w.env.ms) (hk : ∀ n f, h ≠ .named .cls n f) (hi : Body.Ok w.env.ms .record true i)
    (hf : Fresh w (Body.record h i .nil).text) : Reprints w parse_struct (Body.record h i .nil).text (Body.record h i .nil).again.text := by
  have h1 : Body.Ok w.env.ms .file true (.record h i .nil) := .record hh hi .nil
  obtain ⟨pos, hl, ho⟩ := file_lexed h1 (by intro hh; cases hh) (by intro hh; cases hh)
  rw [show (Body.record h i .nil).again.text = h.text ++ b!"\n{\n" ++ (i.again.closed true).text ++ b!"\n};\n" by simp [Body.again, Body.text]]
  have hk' := On.recHead hh (On.left (l := recHeadP [] h) ho)
  have : h.kind = .struct := by
    cases h with
    | named k n f =>
      cases k with
      | cls => exact absurd rfl (hk n f)
      | struct => rfl
    | unnamed => rfl
  rw [this] at hk'
  exact ⟨_, C56_struct (more := []) hr hs (by rw [List.append_nil]; exact hl) (record_toks hi ho hk') (hf.calm hl)⟩

/-- C59: unions. -/
theorem C59_union {n : Bytes} {i : Body} (hr : w.Ready) (hs : Spelled w.env w.heap) (hn : n ≠ [] → IsName w.env.ms n) (hi : Body.Ok w.env.ms .union true i) :
    Reprints w parse_union (Body.union n i .nil).text (Body.union n i .nil).again.text := by
  have h : Body.Ok w.env.ms .file true (.union n i .nil) := .union hn hi .nil
  obtain ⟨pos, hl, ho⟩ := file_lexed h (by intro hh; cases hh) (by intro hh; cases hh)
  rw [show (Body.union n i .nil).again.text = (b!"union " ++ n) ++ b!"\n{\n" ++ (i.again.closed true).text ++ b!"\n};\n" by simp [Body.again, Body.text]]
  rw [show fileP (.union n i .nil) = unionHeadP [] n ++ openP (unionGap n ++ b!"\n") :: (bodyP true true i ++ closeP (endGap true (bodyEnd true i)) [] :: [semiP]) from rfl] at hl ho
  obtain ⟨po, pi, pz, e1, e2, e3, e4⟩ := toks_block (pos := pos) (l := unionHeadP [] n) (o := openP (unionGap n ++ b!"\n")) (inner := bodyP true true i)
    (z := closeP (endGap true (bodyEnd true i)) []) (k := [semiP])
  have h1 := ho.left
  have h2 := ho.right
  rw [← e1] at h2
  have h3 := h2.tail
  rw [← e2] at h3
  rw [e4] at hl
  exact ⟨_, C56_union (more := []) hr hs (by rw [List.append_nil]; exact hl) (On.unionHead hn h1) h2.tokIs (On.members hi true _ h3.left) rfl rfl⟩

/-- C59: namespaces. -/
theorem C59_namespace {n : Qual} {i : Body} (hr : w.Ready) (hs : Spelled w.env w.heap) (hn : n.Ok w.env.ms) (hi : Body.Ok w.env.ms .file true i)
    (hc : 13 ∉ (Body.space n i .nil).text) (hf : Fresh w (Body.space n i .nil).text) :
    Reprints w parse_namespace (Body.space n i .nil).text (Body.space n i .nil).again.text := by
  have h : Body.Ok w.env.ms .file true (.space n i .nil) := .space (.inl rfl) hn hi .nil
  obtain ⟨pos, hl, ho⟩ := file_lexed h (by intro hh; cases hh) (by intro hh; cases hh)
  have hN := no_ctor ho (file_sits h (by intro hh; cases hh)) (file_tame h)
  have hb := hf _ ⟨_, hl⟩
  rw [show (Body.space n i .nil).again.text = b!"namespace " ++ n.text ++ b!"\n{\n" ++ (i.again.closed true).text ++ b!"\n}\n" by simp [Body.again, Body.text]]
  rw [show fileP (.space n i .nil) = kwP [] b!"namespace" .Decl_Namespace :: (qualP b!" " n ++ openP b!"\n" :: (bodyP true true i ++ closeP (endGap true (bodyEnd true i)) b!"\n" :: [])) from rfl] at hl ho hN hb
  obtain ⟨po, pi, pz, e1, e2, e3, e4⟩ := toks_block (pos := pos.after (kwP [] b!"namespace" .Decl_Namespace).all) (l := qualP b!" " n) (o := openP b!"\n") (inner := bodyP true true i)
    (z := closeP (endGap true (bodyEnd true i)) b!"\n") (k := [])
  have h1 := ho.tail.left
  have h2 := ho.tail.right
  rw [← e1] at h2
  have h3 := h2.tail
  rw [← e2] at h3
  rw [toksAt_cons, e4, toksAt_nil, ← List.cons_append, ← List.cons_append] at hl hN hb
  refine ⟨_, C56_namespace hr hs (no_return hc) hl rfl (h1.qual hn) h2.tokIs (On.members hi true _ h3.left) rfl hN ?_⟩
  refine (congrArg (fun k => Behind (w.env.cells.drop k)) ?_).mp hb
  simp only [List.length_append, List.length_cons, List.length_nil]
  omega

/-- C59: linkage blocks. -/
theorem C59_extern {n : Bytes} {i : Body} (hr : w.Ready) (hs : Spelled w.env w.heap) (h0 : n ≠ []) (hn : Lex.StrBody n) (hi : Body.Ok w.env.ms .linkage true i)
    (hc : 13 ∉ (Body.linkage n i .nil).text) (hf : Fresh w (Body.linkage n i .nil).text) :
    Reprints w parse_extern_link (Body.linkage n i .nil).text (Body.linkage n i .nil).again.text := by
  have h : Body.Ok w.env.ms .file true (.linkage n i .nil) := .linkage h0 hn hi .nil
  obtain ⟨pos, hl, ho⟩ := file_lexed h (by intro hh; cases hh) (by intro hh; cases hh)
  have hN := no_ctor ho (file_sits h (by intro hh; cases hh)) (file_tame h)
  have hb := hf _ ⟨_, hl⟩
  rw [show (Body.linkage n i .nil).again.text = b!"extern \"" ++ n ++ b!"\"\n{\n" ++ (i.again.closed true).text ++ b!"\n}\n" by simp [Body.again, Body.text]]
  rw [show fileP (.linkage n i .nil) = ⟨[], b!"extern", b!" ", .Decl_Extern_Linkage, 0⟩ :: ⟨[], b!"\"" ++ n, b!"\"", .String, 2048⟩ :: ([] ++ openP b!"\n" ::
    (bodyP true true i ++ closeP (endGap true (bodyEnd true i)) b!"\n" :: [])) from rfl] at hl ho hN hb
  obtain ⟨po, pi, pz, e1, e2, e3, e4⟩ := toks_block (pos := (pos.after (Piece.all ⟨[], b!"extern", b!" ", .Decl_Extern_Linkage, 0⟩)).after (Piece.all ⟨[], b!"\"" ++ n, b!"\"", .String, 2048⟩))
    (l := []) (o := openP b!"\n") (inner := bodyP true true i) (z := closeP (endGap true (bodyEnd true i)) b!"\n") (k := [])
  have h2 := ho.tail.tail.right
  rw [← e1] at h2
  have h3 := h2.tail
  rw [← e2] at h3
  rw [toksAt_cons, toksAt_cons, e4, toksAt_nil, toksAt_nil, List.nil_append, ← List.cons_append, ← List.cons_append] at hl hN hb
  refine ⟨_, C56_extern hr hs (no_return hc) hl rfl ho.tail.tokIs h0 h2.tokIs (On.members hi true _ h3.left) rfl hN ?_⟩
  refine (congrArg (fun k => Behind (w.env.cells.drop k)) ?_).mp hb
  simp only [List.length_append, List.length_cons, List.length_nil]

/-! ## What changes -/

/-- C59: what comes back may be parsed again. -/
theorem C59_again {ms : Macros} {p : Place} {b : Bool} {x : Body} (h : Body.Ok ms p b x) : Body.Ok ms p b x.again := again_ok h

/-- C59: only line breaks are added, one for every pair of braces with something in it. -/
theorem C59_added (x : Body) : x.again.text.filter (· ≠ 10) = x.text.filter (· ≠ 10) ∧ x.again.text.length = x.text.length + x.blanks := ⟨again_bytes x, again_length x⟩

/-- C59: without such braces the text comes back as it is. -/
theorem C59_flat {x : Body} (hr : w.Ready) (hs : Spelled w.env w.heap) (h : Body.Ok w.env.ms .file true x) (h0 : x ≠ .nil) (hc : 13 ∉ x.text) (hf : Fresh w x.text)
    (hb : x.blanks = 0) : Reprints w parse_global_body x.text x.text := by
  have := C59_file hr hs h h0 hc hf
  rwa [again_flat x hb] at this

/-- After `k` rounds. -/
def Body.rounds (x : Body) : Nat → Body
  | 0 => x
  | k + 1 => (x.rounds k).again

theorem rounds_ok {ms : Macros} {p : Place} {x : Body} (h : Body.Ok ms p true x) : ∀ k, Body.Ok ms p true (x.rounds k)
  | 0 => h
  | k + 1 => again_ok (rounds_ok h k)

/-- C59: files with braces never come to rest: each round reads what the one before printed, and adds the same number of empty lines. -/
theorem C59_rounds {x : Body} (hr : w.Ready) (hs : Spelled w.env w.heap) (h : Body.Ok w.env.ms .file true x) (h0 : x ≠ .nil) (hc : 13 ∉ x.text) (k : Nat)
    (hf : Fresh w (x.rounds k).text) :
    Reprints w parse_global_body (x.rounds k).text (x.rounds (k + 1)).text ∧ (x.rounds k).text.length = x.text.length + k * x.blanks ∧
      (x.rounds k).text.filter (· ≠ 10) = x.text.filter (· ≠ 10) := by
  have key : ∀ k, x.rounds k ≠ .nil ∧ (x.rounds k).blanks = x.blanks ∧ (x.rounds k).text.length = x.text.length + k * x.blanks ∧
      (x.rounds k).text.filter (· ≠ 10) = x.text.filter (· ≠ 10) := by
    intro k
    induction k with
    | zero => exact ⟨h0, rfl, by simp [Body.rounds], rfl⟩
    | succ k ih =>
      obtain ⟨i1, i2, i3, i4⟩ := ih
      refine ⟨?_, by rw [Body.rounds, again_blanks, i2], by rw [Body.rounds, again_length, i3, i2, Nat.succ_mul]; omega, by rw [Body.rounds, again_bytes, i4]⟩
      rw [Body.rounds]
      generalize x.rounds k = y at i1
      cases y <;> first | exact absurd rfl i1 | (intro hh; cases hh)
  obtain ⟨k1, k2, k3, k4⟩ := key k
  refine ⟨C59_file hr hs (rounds_ok h k) k1 ?_ hf, k3, k4⟩
  intro h13
  have : 13 ∈ (x.rounds k).text.filter (· ≠ 10) := List.mem_filter.mpr ⟨h13, by decide⟩
  rw [k4] at this
  exact hc (List.mem_filter.mp this).1

end Verif.Round
