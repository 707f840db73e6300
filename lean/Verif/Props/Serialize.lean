import Verif.Proof.SerWrites
/-!
# Properties C34, C22 (printing) and C45-C48: what the serializers print

Each theorem gives the text printed for one kind of node, in terms of the texts of its parts (`Prints` hypotheses). `Says` is `Prints`
under the condition that the whole text has no NUL bytes and is shorter than 131070 bytes.
-/
namespace Verif.Ser
open Ast Fmt

/-! ## Lemmas -/

theorem EG.code {e : Env} {p : Nat} {t : Bytes} (hv : e.h.Valid p) (h : EG (fun k => dispatch e (ser e k) k p (e.h.cell p)) t) :
    EG (fun k => step e k (ser e k) .code p) t :=
  EG.reading (Res.assert_true (Nat.ne_of_gt hv.1)) (EG.reading (get_ok hv) h)

/-- The other entry points are what the dispatch leads to. -/
theorem entry_eq {e : Env} {p : Nat} (hv : e.h.Valid p) {f : Fn} (h : ∀ k, dispatch e (ser e k) k p (e.h.cell p) = step e k (ser e k) f p)
    (t : Bytes) : Prints e .code p t ↔ Prints e f p t := by
  have key : ∀ k, ser e k .code p [] = ser e k f p [] := by
    intro k
    cases k with
    | zero => rfl
    | succ k =>
      show (Res.assert (p ≠ 0)).bind _ = _
      rw [Res.assert_true (Nat.ne_of_gt hv.1), Res.ok_bind]
      show (e.h.get p).bind _ = _
      rw [get_ok hv, Res.ok_bind]
      show dispatch e (ser e k) k p (e.h.cell p) [] = _
      rw [h k]
      rfl
  unfold Prints
  simp only [key]

theorem EG.body {e : Env} {n : Node} {t : Bytes} (hb : Prints e .body n.body t) :
    EG (fun k => Ser.sub (ser e k) .body n.body fun t => e.fmt b!"\n{\n%SB\n}" [t]) (b!"\n{\n" ++ t ++ b!"\n}") :=
  EG.sub hb ((EG.fmt e [.lit b!"\n{\n", .sb t, .lit b!"\n}"] rfl rfl rfl).congr (by simp [textOf]))

theorem EG.bodyNl {e : Env} {fn : Fn} {n : Node} {t : Bytes} (hb : Prints e fn n.body t) :
    EG (fun k => Ser.sub (ser e k) fn n.body fun t => e.fmt b!"\n{\n%SB\n}\n" [t]) (b!"\n{\n" ++ t ++ b!"\n}\n") :=
  EG.sub hb ((EG.fmt e [.lit b!"\n{\n", .sb t, .lit b!"\n}\n"] rfl rfl rfl).congr (by simp [textOf]))

/-! ## C34: bodies -/

/-- The types of bodies that are printed entry by entry. -/
def plainBody : CodeType → Bool
  | .Enum_Body | .Class_Body | .Extern_Linkage_Body | .Function_Body | .Global_Body | .Namespace_Body | .Struct_Body | .Union_Body => true
  | _ => false

theorem dispatch_body {e : Env} {rec : Fn → Nat → W} {k p : Nat} {n : Node} (ht : plainBody n.type = true) :
    dispatch e rec k p n = bodyRef e rec p := by
  revert ht
  unfold dispatch
  cases n.type <;> intro ht <;> first | exact absurd ht (by decide) | rfl

theorem body_body {e : Env} {rec : Fn → Nat → W} {p : Nat} (hv : e.h.Valid p) (ht : plainBody (e.h.cell p).type = true) :
    body e rec p = bodyRef e rec p := by
  funext r
  show (Res.assert (p ≠ 0)).bind _ = _
  rw [Res.assert_true (Nat.ne_of_gt hv.1), Res.ok_bind]
  show (e.h.get p).bind _ = _
  rw [get_ok hv, Res.ok_bind]
  revert ht
  generalize e.h.cell p = n
  intro ht
  show (match n.type with
    | .Untyped | .Execution => str n.content
    | .Enum_Body | .Class_Body | .Extern_Linkage_Body | .Function_Body | .Global_Body | .Namespace_Body | .Struct_Body | .Union_Body =>
      bodyRef e rec p
    | .Export_Body => bodyExport e rec p
    | _ => nop) r = _
  revert ht
  cases n.type <;> intro ht <;> first | exact absurd ht (by decide) | rfl

/-- C34: a body prints as the texts of its entries, one after the other, for every body (except an export body) and whatever its
entries are: no bound on number, size or contents. -/
theorem C34_body {e : Env} {b : Nat} {l : List Nat} {ts : List Bytes} (hb : IsBody e.h b l) (ht : plainBody (e.h.cell b).type = true)
    (hp : PrintAll e .code l ts) : Prints e .body b ts.flatten ∧ Prints e .code b ts.flatten := by
  have key : EW (fun k => bodyRef e (ser e k) b) ts.flatten := by
    unfold bodyRef
    refine EW.reading (Res.assert_true (Nat.ne_of_gt hb.valid.1)) (EW.reading (get_ok hb.valid) (EW.ifNeg (by rw [hb.count]; omega) ?_))
    have := EW.bodyLoop e l ts _ hb.chain hp
    simpa [hb.count] using this
  constructor
  · refine EW.step ?_
    show EW (fun k => body e (ser e k) b) _
    simpa only [body_body hb.valid ht] using key
  · refine EW.step (EW.reading (Res.assert_true (Nat.ne_of_gt hb.valid.1)) (EW.reading (get_ok hb.valid) ?_))
    simpa only [dispatch_body ht] using key

/-- C34, the other way: if a body prints at all, then its entries do, and the text is their concatenation. -/
theorem C34_body_only {e : Env} {b : Nat} {l : List Nat} {t : Bytes} (hb : IsBody e.h b l) (ht : plainBody (e.h.cell b).type = true)
    (h : Prints e .code b t) : ∃ ts, PrintAll e .code l ts ∧ t = ts.flatten := by
  obtain ⟨k, hk⟩ := h
  cases k with
  | zero => cases hk
  | succ k =>
    have main : ∀ (l : List Nat) (p : Nat) (r u : Bytes), Chain e.h p l → Ser.bodyLoop e (ser e k) l.length p r = .ok u →
        ∃ ts, PrintAll e .code l ts ∧ u = r ++ ts.flatten := by
      intro l
      induction l with
      | nil => intro p r u _ h; cases h; exact ⟨[], trivial, by simp⟩
      | cons q l ih =>
        intro p r u hc h
        obtain ⟨rfl, hv, hc⟩ := hc
        obtain ⟨a, ha, hb⟩ := Res.bind_eq_ok.1 (show (ser e k .code p r).bind _ = _ from h)
        rw [App.ser e k .code p r] at ha
        obtain ⟨x, hx, hx'⟩ := Res.bind_eq_ok.1 ha
        cases hx'
        have hb : (if p = 0 then _ else (e.h.get p).bind _) = _ := hb
        rw [if_neg (by have := hv.1; omega), get_ok hv, Res.ok_bind] at hb
        obtain ⟨ts, h1, h2⟩ := ih _ _ _ hc hb
        exact ⟨x :: ts, ⟨⟨k, hx⟩, h1⟩, by simp [h2]⟩
    have hk : (Res.assert (b ≠ 0)).bind _ = _ := hk
    rw [Res.assert_true (Nat.ne_of_gt hb.valid.1), Res.ok_bind] at hk
    have hk : (e.h.get b).bind _ = _ := hk
    rw [get_ok hb.valid, Res.ok_bind] at hk
    have hk : dispatch e (ser e k) k b (e.h.cell b) [] = .ok t := hk
    rw [dispatch_body ht] at hk
    have hk : (Res.assert (b ≠ 0)).bind _ = _ := hk
    rw [Res.assert_true (Nat.ne_of_gt hb.valid.1), Res.ok_bind] at hk
    have hk : (e.h.get b).bind _ = _ := hk
    rw [get_ok hb.valid, Res.ok_bind] at hk
    have hk : (if (e.h.cell b).num < 0 then fun _ => Res.ub else bodyLoop e (ser e k) (e.h.cell b).num.toNat (e.h.cell b).front) [] = _ := hk
    rw [if_neg (by rw [hb.count]; omega), hb.count, Int.toNat_natCast] at hk
    obtain ⟨ts, h1, h2⟩ := main l _ _ _ hb.chain hk
    exact ⟨ts, h1, by simpa using h2⟩

/-- A body given as untyped text (or statements) prints as that text. -/
theorem C34_text_body {e : Env} {b : Nat} {n : Node} (h : Is e b .Untyped n ∨ Is e b .Execution n) : Prints e .body b n.content := by
  rcases h with ⟨hv, rfl, ht⟩ | ⟨hv, rfl, ht⟩ <;>
  · refine EW.step (EW.reading (Res.assert_true (Nat.ne_of_gt hv.1)) (EW.reading (get_ok hv) ?_))
    simp only [ht]
    exact EW.str _

/-- C34, refuted for export bodies: an export body with an entry is never printed: the loop starts at the body itself. -/
theorem C34_export_refuted {e : Env} {b : Nat} {n : Node} (h : Is e b .Export_Body n) (hn : n.num > 0) (t : Bytes) :
    ¬ Prints e .code b t := by
  obtain ⟨hv, rfl, ht⟩ := h
  rintro ⟨fuel, h⟩
  have key : ∀ fuel r t, ser e fuel .code b r ≠ .ok t := by
    intro fuel
    induction fuel with
    | zero => intro r t h; cases h
    | succ k ih =>
      intro r t h
      have h : (Res.assert (b ≠ 0)).bind _ = _ := h
      rw [Res.assert_true (Nat.ne_of_gt hv.1), Res.ok_bind] at h
      have h : (e.h.get b).bind _ = _ := h
      rw [get_ok hv, Res.ok_bind] at h
      simp only [dispatch, ht] at h
      have h : (Res.assert (b ≠ 0)).bind _ = _ := h
      rw [Res.assert_true (Nat.ne_of_gt hv.1), Res.ok_bind] at h
      have h : (e.h.get b).bind _ = _ := h
      rw [get_ok hv, Res.ok_bind] at h
      have h : (e.fmt b!"export\n{\n" [] ++> (if (e.h.cell b).num < 0 then fun _ => Res.ub else bodyLoop e (ser e k) (e.h.cell b).num.toNat b) ++>
        e.fmt b!"};\n" []) r = _ := h
      rw [if_neg (by omega)] at h
      obtain ⟨x, h1, h⟩ := Res.bind_eq_ok.1 (show Res.bind _ _ = _ from h)
      obtain ⟨y, h1, h2⟩ := Res.bind_eq_ok.1 (show Res.bind _ _ = _ from h1)
      obtain ⟨j, hj⟩ : ∃ j, (e.h.cell b).num.toNat = j + 1 := ⟨(e.h.cell b).num.toNat - 1, by omega⟩
      rw [hj] at h2
      obtain ⟨z, h3, _⟩ := Res.bind_eq_ok.1 (show (ser e k .code b y).bind _ = _ from h2)
      exact ih _ _ h3
  exact key _ _ _ h

/-! ## C48: text, comments, preprocessor lines, namespaces, modules -/

theorem says_code {e : Env} {p : Nat} {ty : CodeType} {n : Node} {t : Bytes} (h : Is e p ty n)
    (hd : EG (fun k => dispatch e (ser e k) k p n) t) : Says e .code p t := by
  obtain ⟨hv, rfl, _⟩ := h
  exact EG.says (EG.code hv hd)

/-- Untyped code, statements, comments and attributes print as they are, whatever their size and contents. -/
theorem C48_text {e : Env} {p : Nat} {n : Node} (h : Is e p .Untyped n ∨ Is e p .Execution n ∨ Is e p .Comment n ∨ Is e p .PlatformAttributes n) :
    Prints e .code p n.content := by
  rcases h with ⟨hv, rfl, ht⟩ | ⟨hv, rfl, ht⟩ | ⟨hv, rfl, ht⟩ | ⟨hv, rfl, ht⟩ <;>
  · refine EW.step (EW.reading (Res.assert_true (Nat.ne_of_gt hv.1)) (EW.reading (get_ok hv) ?_))
    simp only [dispatch, ht]
    exact EW.str _

/-- A new line prints as one. -/
theorem C48_newline {e : Env} {p : Nat} {n : Node} (h : Is e p .NewLine n) : Prints e .code p b!"\n" := by
  obtain ⟨hv, rfl, ht⟩ := h
  refine EW.step (EW.reading (Res.assert_true (Nat.ne_of_gt hv.1)) (EW.reading (get_ok hv) ?_))
  simp only [dispatch, ht]
  exact EW.str _

/-- Access labels print as their name. -/
theorem C48_access {e : Env} {p : Nat} {n : Node} (h : Is e p .Access_Private n ∨ Is e p .Access_Protected n ∨ Is e p .Access_Public n) :
    Prints e .code p n.name := by
  rcases h with ⟨hv, rfl, ht⟩ | ⟨hv, rfl, ht⟩ | ⟨hv, rfl, ht⟩ <;>
  · refine EW.step (EW.reading (Res.assert_true (Nat.ne_of_gt hv.1)) (EW.reading (get_ok hv) ?_))
    simp only [dispatch, ht]
    exact EW.str _

theorem C48_invalid {e : Env} {p : Nat} {n : Node} (h : Is e p .Invalid n) : Says e .code p b!"Invalid Code!" := by
  refine says_code h ?_
  simp only [dispatch, h.type]
  exact (EG.fmt e [.lit b!"Invalid Code!"] rfl rfl rfl).congr (by simp [textOf])

/-- `#include`, `#pragma` and the conditional lines: the directive, a space, the content. -/
theorem C48_directive {e : Env} {p : Nat} {n : Node} {ty : CodeType} {before after : Bytes} (h : Is e p ty n)
    (hd : (ty, before, after) ∈ [(CodeType.Preprocess_Include, b!"#include ", b!"\n"), (.Preprocess_Pragma, b!"#pragma ", b!"\n"),
      (.Preprocess_If, b!"#if ", b!""), (.Preprocess_IfDef, b!"#ifdef ", b!"\n"), (.Preprocess_IfNotDef, b!"#ifndef ", b!""),
      (.Preprocess_ElIf, b!"#elif ", b!"\n")]) : Says e .code p (before ++ contentText e p ++ after) := by
  refine says_code h ?_
  obtain ⟨hv, rfl, ht⟩ := h
  simp only [List.mem_cons, Prod.mk.injEq, List.not_mem_nil, or_false] at hd
  rcases hd with ⟨rfl, rfl, rfl⟩ | ⟨rfl, rfl, rfl⟩ | ⟨rfl, rfl, rfl⟩ | ⟨rfl, rfl, rfl⟩ | ⟨rfl, rfl, rfl⟩ | ⟨rfl, rfl, rfl⟩
  · simp only [dispatch, ht]
    exact (EG.fmt e [.lit b!"#include ", .s _ _, .lit b!"\n"] rfl rfl rfl).congr (by simp [textOf, contentText])
  · simp only [dispatch, ht]
    exact (EG.fmt e [.lit b!"#pragma ", .s _ _, .lit b!"\n"] rfl rfl rfl).congr (by simp [textOf, contentText])
  · simp only [dispatch, ht]
    exact (EG.fmt e [.lit b!"#if ", .s _ _] rfl rfl rfl).congr (by simp [textOf, contentText])
  · simp only [dispatch, ht]
    exact (EG.fmt e [.lit b!"#ifdef ", .s _ _, .lit b!"\n"] rfl rfl rfl).congr (by simp [textOf, contentText])
  · simp only [dispatch, ht]
    exact (EG.fmt e [.lit b!"#ifndef ", .s _ _] rfl rfl rfl).congr (by simp [textOf, contentText])
  · simp only [dispatch, ht]
    exact (EG.fmt e [.lit b!"#elif ", .s _ _, .lit b!"\n"] rfl rfl rfl).congr (by simp [textOf, contentText])

theorem C48_else {e : Env} {p : Nat} {n : Node} (h : Is e p .Preprocess_Else n) : Says e .code p b!"#else\n" := by
  refine says_code h ?_
  simp only [dispatch, h.type]
  exact EG.str _

theorem C48_endif {e : Env} {p : Nat} {n : Node} (h : Is e p .Preprocess_EndIf n) : Says e .code p b!"#endif\n" := by
  refine says_code h ?_
  simp only [dispatch, h.type]
  exact EG.str _

/-- `#define NAME content`. -/
theorem C48_define {e : Env} {p : Nat} {n : Node} (h : Is e p .Preprocess_Define n) (hp : n.params = 0) (hb : e.h.Valid n.body)
    (hc : (e.h.cell n.body).content ≠ []) :
    Says e .code p (b!"#define " ++ nameText e p ++ b!" " ++ (e.h.cell n.body).content) := by
  refine says_code h ?_
  obtain ⟨hv, rfl, ht⟩ := h
  simp only [dispatch, ht, define]
  refine EG.reading (Res.assert_true (Nat.ne_of_gt hb.1)) (EG.reading (get_ok hb) (EG.reading (Res.assert_true hc) (EG.ifNeg (by simpa using hp) ?_)))
  exact (EG.fmt e [.lit b!"#define ", .s _ _, .lit b!" ", .s _ _] rfl rfl rfl).congr (by simp [textOf, nameText, strText, hc])

/-- `#define NAME(params) content`. -/
theorem C48_define_params {e : Env} {p : Nat} {n : Node} {pt : Bytes} (h : Is e p .Preprocess_Define n) (hp : n.params ≠ 0)
    (hpt : Prints e .defParams n.params pt) (hb : e.h.Valid n.body) (hc : (e.h.cell n.body).content ≠ []) :
    Says e .code p (b!"#define " ++ nameText e p ++ b!"(" ++ pt ++ b!") " ++ (e.h.cell n.body).content) := by
  refine says_code h ?_
  obtain ⟨hv, rfl, ht⟩ := h
  simp only [dispatch, ht, define]
  refine EG.reading (Res.assert_true (Nat.ne_of_gt hb.1)) (EG.reading (get_ok hb) (EG.reading (Res.assert_true hc) (EG.ifPos (by simpa using hp)
    (EG.recReading hpt ?_))))
  refine EG.congr (EG.fmt e [.lit b!"#define ", .s (e.nullStr p) (e.h.cell p).name, .lit b!"(", .s false pt, .lit b!") ",
    .s (e.nullStr (e.h.cell p).body) (e.h.cell (e.h.cell p).body).content] rfl (by simp [argsOf, strArg, Env.name, Env.content]) rfl) ?_
  simp [textOf, nameText, strText, hc]

/-- The parameters of a define: ` a, b, c`, where every name follows a space. -/
theorem C48_define_param_list {e : Env} {p : Nat} {l : List Nat} {ts : List Bytes} (hv : e.h.Valid p) (hn : (e.h.cell p).name ≠ [])
    (hl : Linked e.h (e.h.cell p).back l) (hp : PrintAll e .defParams l ts) :
    Says e .defParams p (b!" " ++ (e.h.cell p).name ++ ifText ((e.h.cell p).num - 1 > 0) (wrapped b!", " b!"" ts)) := by
  refine EG.says (EG.reading (Res.assert_true (Nat.ne_of_gt hv.1)) (EG.reading (get_ok hv) ?_))
  refine EG.congr (EG.seq (EG.opt fun _ => EG.fmt e [.lit b!" ", .s _ _] rfl rfl rfl) (EG.opt fun _ => EG.chain e _ b!", " b!"" .defParams rfl rfl rfl l ts _ hl hp)) ?_
  simp [ifText, hn, textOf, strText]

/-- `namespace Name { body }`. -/
theorem C48_namespace {e : Env} {p : Nat} {n : Node} {t : Bytes} (h : Is e p .Namespace n) (hb : Prints e .body n.body t) :
    Says e .code p (exportText n ++ b!"namespace " ++ nameText e p ++ b!"\n{\n" ++ t ++ b!"\n}\n") := by
  refine says_code h ?_
  obtain ⟨hv, rfl, ht⟩ := h
  simp only [dispatch, ht, namespaceRef]
  refine EG.congr (EG.seq (EG.exportPrefix _) (EG.sub hb (EG.fmt e [.lit b!"namespace ", .s _ _, .lit b!"\n{\n", .sb t, .lit b!"\n}\n"] rfl rfl rfl))) ?_
  simp [textOf, nameText]

/-- `extern "Name" { body }`. -/
theorem C48_extern {e : Env} {p : Nat} {n : Node} {t : Bytes} (h : Is e p .Extern_Linkage n) (hb : n.body ≠ 0 → Prints e .body n.body t) :
    Says e .code p (b!"extern \"" ++ nameText e p ++ (if n.body = 0 then b!"\"\n{}\n" else b!"\"\n{\n" ++ t ++ b!"\n}\n")) := by
  refine says_code h ?_
  obtain ⟨hv, rfl, ht⟩ := h
  simp only [dispatch, ht, externRef]
  refine EG.congr (EG.ifSlot (fun hn => EG.sub (hb hn) (EG.fmt e [.lit b!"extern \"", .s _ _, .lit b!"\"\n{\n", .sb t, .lit b!"\n}\n"] rfl rfl rfl))
    (fun _ => EG.fmt e [.lit b!"extern \"", .s _ _, .lit b!"\"\n{}\n"] rfl rfl rfl)) ?_
  split <;> simp [textOf, nameText]

/-- `export import Name;` -/
theorem C48_module {e : Env} {p : Nat} {n : Node} (h : Is e p .Module n) :
    Says e .code p (exportText n ++ ifText (imported n) b!"import " ++ nameText e p ++ b!";\n") := by
  refine says_code h ?_
  obtain ⟨hv, rfl, ht⟩ := h
  simp only [dispatch, ht, Ser.module]
  refine EG.congr (EG.seq (EG.seq (EG.exportPrefix _) (EG.opt fun _ => EG.str _)) (EG.fmt e [.s _ _, .lit b!";\n"] rfl rfl rfl)) ?_
  simp [textOf, nameText]

/-- `using namespace Name;` -/
theorem C48_using_namespace {e : Env} {p : Nat} {n : Node} (h : Is e p .Using_Namespace n) (hc : n.inlineCmt = 0) :
    Says e .code p (b!"using namespace " ++ nameText e p ++ b!";\n") := by
  refine says_code h ?_
  obtain ⟨hv, rfl, ht⟩ := h
  simp only [dispatch, ht, usingNs]
  refine EG.congr (EG.ifNeg (by simpa using hc) (EG.fmt e [.lit b!"using namespace ", .s _ _, .lit b!";\n"] rfl rfl rfl)) ?_
  simp [textOf, nameText]

/-- With a comment it is wrong: `$S` is printed for the name, the name where the comment should be, and no line break. -/
theorem C48_using_namespace_comment_refuted {e : Env} {p : Nat} {n : Node} (h : Is e p .Using_Namespace n) (hc : n.inlineCmt ≠ 0)
    (hv : e.h.Valid n.inlineCmt) : Says e .code p (b!"using namespace $S;  " ++ nameText e p) := by
  refine says_code h ?_
  obtain ⟨_, rfl, ht⟩ := h
  simp only [dispatch, ht, usingNs]
  refine EG.ifPos hc (EG.reading (get_ok hv) (EG.congr (EG.fmtExtra e [.lit b!"using namespace $S;  ", .s _ _] [e.content _ _] rfl rfl rfl) ?_))
  simp [textOf, nameText]

/-- `template< params > declaration`. -/
theorem C48_template {e : Env} {p : Nat} {n : Node} {pt d : Bytes} (h : Is e p .Template n) (hp : n.params ≠ 0 → Prints e .params n.params pt)
    (hd : Prints e .code n.body d) :
    Says e .code p (exportText n ++ (if n.params = 0 then b!"template<>\n" else b!"template< " ++ pt ++ b!" >\n") ++ d) := by
  refine says_code h ?_
  obtain ⟨hv, rfl, ht⟩ := h
  simp only [dispatch, ht, template]
  refine EG.congr (EG.seq (EG.exportPrefix _) (EG.ifSlot
    (fun hn => EG.sub (hp hn) (EG.sub hd (EG.fmt e [.lit b!"template< ", .sb pt, .lit b!" >\n", .sb d] rfl rfl rfl)))
    (fun _ => EG.sub hd (EG.fmt e [.lit b!"template<>\n", .sb d] rfl rfl rfl)))) ?_
  split <;> simp [textOf]

/-- `friend declaration;`: the `;` is left out after a function or operator definition and where the declaration ends with one. -/
theorem C48_friend {e : Env} {p : Nat} {n : Node} {d : Bytes} (h : Is e p .Friend n) (hb : e.h.Valid n.body) (hd : Prints e .code n.body d)
    (hc : Slot e n.inlineCmt) :
    Says e .code p (b!"friend " ++ d ++
      ifText ((e.h.cell n.body).type ≠ .Function ∧ (e.h.cell n.body).type ≠ .Operator ∧ d.getLast? ≠ some 59) b!";" ++
      cmtText e n b!"  " b!"" b!"\n") := by
  refine says_code h ?_
  obtain ⟨hv, rfl, ht⟩ := h
  simp only [dispatch, ht, friendRef]
  refine EG.seq ?_ (EG.cmtText e _ b!"  " b!"" b!"\n" hc rfl rfl rfl (by decide))
  intro hf
  obtain ⟨k, hk⟩ := EG.sub (k := fun _ t => e.fmt b!"friend %SB" [t]) hd (EG.fmt e [.lit b!"friend ", .sb d] rfl rfl rfl) (by simpa [textOf] using hf.append.1)
  refine ⟨k, fun j hj r => ?_⟩
  have hw : (Ser.sub (ser e j) .code (e.h.cell p).body fun t => e.fmt b!"friend %SB" [t]) r = _ := hk j hj r
  show ((Ser.sub (ser e j) .code (e.h.cell p).body fun t => e.fmt b!"friend %SB" [t]) r).bind _ = _
  rw [hw, Res.ok_bind]
  show (e.h.get _).bind _ = _
  rw [get_ok hb, Res.ok_bind]
  have hlast : (r ++ textOf [.lit b!"friend ", .sb d]).getLast? = some 59 ↔ d.getLast? = some 59 := by
    cases hd' : d.getLast? with
    | none => rw [List.getLast?_eq_none_iff] at hd'; simp [textOf, hd']
    | some x => simp [textOf, List.getLast?_append, List.getLast?_cons, hd']
  simp only [ne_eq, hlast]
  unfold ifText
  split <;> simp [Ser.str, textOf]

end Verif.Ser
