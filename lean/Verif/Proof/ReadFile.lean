import Verif.Proof.ReadScan
import Verif.Proof.ReadTemplate
import Verif.Proof.ReadDirective
/-!
# Running the parser on classes, structs, namespaces and files
-/
namespace Verif.Parse
open Verif.Lex (Tok)
open Verif.Ast P
open Verif.Ser hiding Env boundsText isNext

variable {e : Env} {s : St} {t u : Tok} {ts vs more rest : List Tok} {x y name : Bytes} {a b n : Nat}
variable {r' : Rec}

theorem nspaceMember_decl {r : Rec} {which : CodeType} {ty : TokType} (h : ty ∈ typeStarts) (h2 : ty ∉ vendorTypes) : nspaceMember r which ty = nspaceDecl false 0 0 := by
  revert h h2
  cases ty <;> first | exact fun _ _ => rfl | (intro h h2; exact absurd h (by decide)) | (intro h h2; exact absurd h2 (by decide))

theorem nspaceMember_spec {r : Rec} {which : CodeType} {x : Specifier} (h : x ∈ firstSpecs .file) : nspaceMember r which (specTok x) = nspaceSpecified 0 := by
  revert h
  cases x <;> first | exact fun _ => rfl | (intro h; exact absurd h (by decide))

theorem nspaceSpecs_ok {l : List Specifier} (h : ∀ x ∈ l, x ∈ placeSpecs .file) : ∀ x ∈ l, orConst nspaceSpecs x = some (some true) := by
  intro x hx
  have := h x hx
  revert this
  cases x <;> decide

/-- A declaration in a file or namespace. -/
theorem nspaceMember_run {next : List Tok} {us : List Tok} {r : Rec} {which : CodeType} (hS : Scan e) (hD : DeclToks e.ms e.mem .file next y us) (hB : Behind (more ++ rest))
    (hn : 0 < s.heap.next) (h : Here e s (us ++ (next ++ more)) rest) :
    ∃ f tl, us = f :: tl ∧ isFmt f = false ∧ f.type ∉ [TokType.Statement_End, .Preprocess_Hash, .BraceCurly_Close] ∧ Gives (nspaceMember r which f.type) e s us.length y := by
  obtain ⟨specs, ss, f, n, tl, rfl, h1, h2, h3, hl, h4, h5, h6, h7, h8, h9, h11, h10⟩ := hD.split hB.1 hB.2
  cases h1 with
  | nil =>
    refine ⟨f, n :: tl, rfl, h5, ?_, ?_⟩
    · intro hh
      have := h4
      revert hh this
      cases f.type <;> decide
    · rw [List.nil_append] at h ⊢
      obtain ⟨p, h', r1, r2⟩ := h10 s s.heap.next 0 hn (Nat.le_refl _) (by unfold SpecsIn; simp) h
      rw [nspaceMember_decl h4 (h6 rfl)]
      refine ⟨p, h', ?_, r2⟩
      rw [nspaceDecl_run hS h4 h7 (h11 s h) h]
      exact r1
  | @cons x l t ss hx hs =>
    refine ⟨t, _, rfl, specTok_fmt x hx.type, ?_, ?_⟩
    · rw [hx.type]
      cases x <;> decide
    · rw [hx.type, nspaceMember_spec (h3 x rfl)]
      have h : Here e s (t :: ss ++ (f :: n :: (tl ++ (next ++ more)))) rest := by simpa using h
      have r1 := specifiersLoop_run (.cons hx hs) (nspaceSpecs_ok h2) h (h8 _ rfl) (found := []) (by rw [List.length_nil]; omega)
      rw [List.nil_append] at r1
      obtain ⟨sq, g, r2, k2, n2, q2⟩ := specsOf_run (e := e) (s := s.adv (t :: ss).length) (l := x :: l) hn hl
      have n2 : s.heap.next ≤ g.next := n2
      have hh : Here e ⟨s.idx + (t :: ss).length, g, s.scope⟩ (f :: n :: (tl ++ (next ++ more))) rest := h.advN.at rfl
      have hh' : Here e ⟨s.idx + (t :: ss).length, g, s.scope⟩ (f :: n :: tl ++ (next ++ more)) rest := by simpa using hh
      obtain ⟨p, h', r3, r4, r5⟩ := h10 ⟨s.idx + (t :: ss).length, g, s.scope⟩ s.heap.next sq hn n2 q2 hh'
      refine ⟨p, h', ?_, (agree_kept (Nat.succ_pos _) (Nat.le_refl _) k2).trans r4, r5⟩
      unfold nspaceSpecified
      refine bind_run r1 ?_
      refine bind_run r2 ?_
      show nspaceDecl _ 0 sq e ⟨s.idx + (t :: ss).length, g, s.scope⟩ = _
      rw [nspaceDecl_run hS h4 h7 (h11 _ hh') hh, r3]
      simp [Nat.add_assoc]
      omega

/-! ## Namespaces and files -/

/-- The body of a namespace or linkage block. -/
theorem nspaceBody_run {r : Rec} {which : CodeType} {inner : List Tok} {o z : Tok} (hw : which ≠ .Global_Body) (hr : Reads e rest n (.body b!"parse_global_nspace" (nspaceMember r which)) inner y) (ho : o.type = .BraceCurly_Open)
    (hz : z.type = .BraceCurly_Close) (hn : n ≤ s.heap.next) (hn0 : 0 < s.heap.next) (hc : Consts e n s.heap) (hm : 1 ≤ (more ++ rest).length)
    (h : Here e s (o :: inner ++ z :: more) rest) :
    ∃ h' ps ys, nspaceWith r which e s = .ok (s.heap.next, ⟨s.idx + (inner.length + 2), h', s.scope⟩) ∧ BodyHas which s.heap.next h' ps ys ∧ ys.flatten = y ∧
      s.heap.next < h'.next ∧ Agree 1 s.heap.next s.heap h' := by
  have h0 := h.heap s.heap (b!"parse_global_nspace" :: s.scope)
  have heat := h0.eat
  rw [ho] at heat
  have hb := bodyHas_new (ty := which) hn0
  have hk : Kept s.heap (grown s.heap { type := which }) := kept_grown _ _
  have ha : Agree 1 s.heap.next s.heap (grown s.heap { type := which }) := agree_kept (Nat.succ_pos _) (Nat.le_refl _) hk
  have hh : Here e ⟨s.idx + 1, grown s.heap { type := which }, b!"parse_global_nspace" :: s.scope⟩ (inner ++ z :: more) rest := (h0.tail.heap _ _).at rfl
  obtain ⟨h', ps, ys, m, r1, r2, r3, r4, r5, r6⟩ := hr which s.heap.next ⟨s.idx + 1, grown s.heap { type := which }, b!"parse_global_nspace" :: s.scope⟩ [] [] (z :: more)
    rfl hb hn (hc.keep (ha.mono (Nat.le_refl _) hn) (Nat.le_succ _)) (.brace hz hm) (fun hh => by cases hh) hh
  have r5 : s.heap.next + 1 ≤ h'.next := r5
  have hl := h0.length_le
  simp only [List.length_append, List.length_cons] at hl
  refine ⟨h', ps, ys, inScope_run (sc := b!"parse_global_nspace" :: s.scope) ?_ rfl, by simpa using r3, r4, by omega, ha.trans r6⟩
  simp only [hw, ne_eq, not_false_eq_true, if_true]
  refine bind_run heat ?_
  refine bind_run (make_run (e := e) (s := (St.mk s.idx s.heap (b!"parse_global_nspace" :: s.scope)).adv 1) hn0 { type := which }) ?_
  refine bind_run (a := ()) (s' := ⟨s.idx + 1 + inner.length, h', b!"parse_global_nspace" :: s.scope⟩) ?_ ?_
  · exact bind_run (r2.loop (by omega)) rfl
  · have hz' : Here e ⟨s.idx + 1 + inner.length, h', b!"parse_global_nspace" :: s.scope⟩ (z :: more) rest := (hh.advN.heap _ _).at rfl
    have := hz'.eat
    rw [hz] at this
    refine bind_run this ?_
    simp only [St.adv, pureP]
    congr 3
    omega

/-- The body of a file. -/
theorem fileBody_run {r : Rec} (hr : Reads e rest n (.body b!"parse_global_nspace" (nspaceMember r .Global_Body)) ts y) (hn : n ≤ s.heap.next) (hn0 : 0 < s.heap.next) (hc : Consts e n s.heap)
    (hB : Behind rest) (h : Here e s ts rest) :
    ∃ h' ps ys, nspaceWith r .Global_Body e s = .ok (s.heap.next, ⟨s.idx + ts.length, h', s.scope⟩) ∧ BodyHas .Global_Body s.heap.next h' ps ys ∧ ys.flatten = y ∧
      s.heap.next < h'.next ∧ Agree 1 s.heap.next s.heap h' := by
  have hb := bodyHas_new (ty := .Global_Body) hn0
  have hk : Kept s.heap (grown s.heap { type := .Global_Body }) := kept_grown _ _
  have ha : Agree 1 s.heap.next s.heap (grown s.heap { type := .Global_Body }) := agree_kept (Nat.succ_pos _) (Nat.le_refl _) hk
  have hh : Here e ⟨s.idx, grown s.heap { type := .Global_Body }, b!"parse_global_nspace" :: s.scope⟩ (ts ++ []) rest := by
    rw [List.append_nil]
    exact h.heap _ _
  obtain ⟨h', ps, ys, m, r1, r2, r3, r4, r5, r6⟩ := hr .Global_Body s.heap.next ⟨s.idx, grown s.heap { type := .Global_Body }, b!"parse_global_nspace" :: s.scope⟩ [] [] []
    rfl hb hn (hc.keep (ha.mono (Nat.le_refl _) hn) (Nat.le_succ _)) ⟨.inl rfl, hB⟩ (fun _ => ⟨_, _, rfl⟩) hh
  have r5 : s.heap.next + 1 ≤ h'.next := r5
  have hl := hh.length_le
  simp only [List.append_nil] at hl
  refine ⟨h', ps, ys, inScope_run (sc := b!"parse_global_nspace" :: s.scope) ?_ rfl, by simpa using r3, r4, by omega, ha.trans r6⟩
  simp only [ne_eq, not_true_eq_false, if_false]
  refine bind_run (make_run (e := e) (s := St.mk s.idx s.heap (b!"parse_global_nspace" :: s.scope)) hn0 { type := .Global_Body }) ?_
  refine bind_run (a := ()) (s' := ⟨s.idx + ts.length, h', b!"parse_global_nspace" :: s.scope⟩) ?_ ?_
  · exact bind_run (r2.loop (by omega)) rfl
  · rfl

/-- A namespace. -/
theorem namespace_gives {r : Rec} {f o z : Tok} {ns inner : List Tok} (hrn : r.nspace .Namespace_Body = nspaceWith r' .Namespace_Body) (hf : f.type = .Decl_Namespace)
    (hN : QualToks e.mem name ns) (ho : TokIs e.mem o .BraceCurly_Open 0 b!"{")
    (hr : Reads e rest n (.body b!"parse_global_nspace" (nspaceMember r' .Namespace_Body)) inner y) (hz : z.type = .BraceCurly_Close) (hm : 1 ≤ (more ++ rest).length)
    (hn : n ≤ s.heap.next) (hn0 : 0 < s.heap.next) (hc : Consts e n s.heap) (h : Here e s (f :: ns ++ o :: inner ++ z :: more) rest) :
    Gives (parseNamespace r) e s (ns.length + inner.length + 3) (b!"namespace " ++ name ++ b!"\n{\n" ++ y ++ b!"\n}\n") := by
  have h0 : Here e ⟨s.idx, s.heap, b!"parser_parse_namespace" :: s.scope⟩ (f :: (ns ++ o :: (inner ++ z :: more))) rest := by
    have := h.heap s.heap (b!"parser_parse_namespace" :: s.scope)
    simpa using this
  have heat := h0.eat
  rw [hf] at heat
  have h1 : Here e ⟨s.idx + 1, s.heap, b!"parser_parse_namespace" :: s.scope⟩ (ns ++ o :: (inner ++ z :: more)) rest := h0.tail.at rfl
  obtain ⟨i, l, e1, e2, r1⟩ := identifier_run hN h1 (headEnds_of (fl := 0) (x := b!"{") (.inl ho)).name
  have h2 : Here e ⟨s.idx + 1 + ns.length, s.heap, b!"parser_parse_namespace" :: s.scope⟩ (o :: inner ++ z :: more) rest := h1.advN.at rfl
  obtain ⟨h', ps, ys, r2, r3, r4, r5, r6⟩ := nspaceBody_run (s := ⟨s.idx + 1 + ns.length, s.heap, b!"parser_parse_namespace" :: s.scope⟩) (by decide) hr ho.type hz hn hn0 hc hm h2
  have r5 : s.heap.next < h'.next := r5
  refine Gives.scope ?_
  refine ⟨h'.next, grown h' { type := .Namespace, name := name, body := s.heap.next }, ?_, ?_, by show s.heap.next ≤ _; omega, rfl, ?_, ?_⟩
  · refine bind_run heat ?_
    unfold identText
    refine bind_run (bind_run r1 (pureP _ _ _)) ?_
    rw [hrn]
    refine bind_run r2 ?_
    refine bind_run (spanBytes e2) ?_
    have := make_run (e := e) (s := ⟨s.idx + 1 + ns.length + (inner.length + 2), h', b!"parser_parse_namespace" :: s.scope⟩) (by show 0 < h'.next; omega)
      { type := .Namespace, name := name, body := s.heap.next }
    rw [this]
    simp only [Res.ok.injEq, Prod.mk.injEq, St.mk.injEq, and_true, true_and]
    omega
  · exact r6.trans (agree_kept (Nat.succ_pos _) (by omega) (kept_grown _ _))
  · unfold Single
    simp [grown, isBodyType]
  · have hst := r3.stands rfl
    rw [r4] at hst
    intro E par f' q w1 w2 w3 w4 hf
    have hfy : Fits y := (Fits.append (Fits.append hf).1).2
    have hcell : E.h.cell h'.next = { type := .Namespace, name := name, body := s.heap.next, parent := par, front := f', back := q } := by
      rw [w3]
      simp [grown]
    have hg : Agree s.heap.next h'.next h' E.h := by
      intro v v1 v2
      have := w1 v v1 v2
      refine ⟨this.1, ?_⟩
      rw [this.2]
      simp [grown, Nat.ne_of_lt v2]
    have hb := hst.says E hg hfy
    refine (C48_namespace (e := E) (n := E.h.cell h'.next) (t := y) ⟨w2, rfl, by rw [hcell]⟩ (by rw [hcell]; exact hb)).print' ?_ hf
    have hne : name ≠ [] := by cases hN; assumption
    have h3 : exportText (E.h.cell h'.next) = [] := by rw [hcell]; rfl
    have h4 : nameText E h'.next = name := by
      rw [nameText_of (by rw [hcell]; exact hne), hcell]
    rw [h3, h4]
    simp

/-- A linkage block. -/
theorem extern_gives {r : Rec} {f l o z : Tok} {fl : Nat} {inner : List Tok} (hrn : r.nspace .Extern_Linkage_Body = nspaceWith r' .Extern_Linkage_Body) (hf : f.type = .Decl_Extern_Linkage)
    (hL : TokIs e.mem l .String fl (b!"\"" ++ name)) (hne : name ≠ []) (ho : TokIs e.mem o .BraceCurly_Open 0 b!"{")
    (hr : Reads e rest n (.body b!"parse_global_nspace" (nspaceMember r' .Extern_Linkage_Body)) inner y) (hz : z.type = .BraceCurly_Close) (hm : 1 ≤ (more ++ rest).length)
    (hn : n ≤ s.heap.next) (hn0 : 0 < s.heap.next) (hc : Consts e n s.heap) (h : Here e s (f :: l :: o :: inner ++ z :: more) rest) :
    GivesIn (externLink r) e s (inner.length + 4) (b!"extern \"" ++ name ++ b!"\"\n{\n" ++ y ++ b!"\n}\n") := by
  obtain ⟨sc, hsc⟩ : ∃ sc, sc = b!"parser_parse_extern_link" :: s.scope := ⟨_, rfl⟩
  have h0 : Here e ⟨s.idx, s.heap, sc⟩ (f :: l :: (o :: inner ++ z :: more)) rest := by simpa using h.heap s.heap sc
  have e0 := h0.eat
  rw [hf] at e0
  have e1 := h0.tail.eat
  rw [hL.type] at e1
  have hnm : ∀ s, Parse.bytes ⟨l.start + 1, l.len - 1⟩ e s = .ok (name, s) := by
    intro s
    have hl := hL.len
    have ht := hL.text
    simp only [List.length_append, List.length_cons, List.length_nil] at hl ht
    have hpos := List.length_pos_iff.2 hne
    have hlen := congrArg List.length ht
    unfold Lex.slice at ht hlen
    simp only [List.length_append, List.length_cons, List.length_nil, List.length_take, List.length_drop] at hlen
    have hsl : Lex.slice e.mem (l.start + 1) name.length = name := by
      unfold Lex.slice
      have := congrArg (List.drop 1) ht
      rw [List.drop_take, List.drop_drop] at this
      simpa using this
    unfold Parse.bytes Env.bytes
    simp only [hl]
    rw [if_neg (by omega), if_neg (by omega), show ((((0 + 1 + name.length : Nat) : Int)) - 1).toNat = name.length by omega, hsl]
    rfl
  obtain ⟨N, hN⟩ : ∃ N : Node, N = { type := .Extern_Linkage, name := name } := ⟨_, rfl⟩
  obtain ⟨h1, hh1⟩ : ∃ h1, h1 = grown s.heap N := ⟨_, rfl⟩
  have n1 : h1.next = s.heap.next + 1 := by rw [hh1]; rfl
  have a1 : Agree 1 s.heap.next s.heap h1 := by rw [hh1]; exact agree_kept (Nat.succ_pos _) (Nat.le_refl _) (kept_grown _ _)
  have h2 : Here e ⟨s.idx + 2, h1, b!"parser_parse_extern_link_body" :: sc⟩ (o :: inner ++ z :: more) rest := (h0.tail.tail.heap _ _).at rfl
  obtain ⟨h', ps, ys, r2, r3, r4, r5, r6⟩ := nspaceBody_run (s := ⟨s.idx + 2, h1, b!"parser_parse_extern_link_body" :: sc⟩) (by decide) hr ho.type hz (by show n ≤ h1.next; omega) (by show 0 < h1.next; omega)
    (hc.keep (a1.mono (Nat.le_refl _) hn) (by show _ ≤ h1.next; omega)) hm h2
  have r5 : h1.next < h'.next := r5
  have r6 : Agree 1 h1.next h1 h' := r6
  have r3 : BodyHas .Extern_Linkage_Body h1.next h' ps ys := r3
  have hx1 : h'.cell s.heap.next = N := by
    rw [(r6 s.heap.next (by omega) (by omega)).2, hh1]
    simp [grown]
  obtain ⟨M, hM⟩ : ∃ M : Node, M = { type := .Extern_Linkage, name := name, body := h1.next } := ⟨_, rfl⟩
  obtain ⟨h3, hh3⟩ : ∃ h3, h3 = changed h' s.heap.next M := ⟨_, rfl⟩
  have hc3 : h3.cell s.heap.next = M := by rw [hh3]; simp [changed]
  have n3 : h3.next = h'.next := by rw [hh3]; rfl
  have r7 : BodyHas .Extern_Linkage_Body h1.next h3 ps ys := by
    refine r3.keep ?_ (by omega)
    rw [hh3]
    exact agree_changed (by omega) (Nat.le_refl _) (.inl (by omega))
  have hst := r7.stands rfl
  rw [r4] at hst
  refine ⟨s.heap.next, h3, inScope_run (sc := sc) ?_ hsc, ?_, Nat.le_refl _, by omega, ?_, ?_⟩
  · rw [← hsc]
    refine bind_run e0 ?_
    refine bind_run (h0.tail.cur (isFmt_of_type hL.type (by decide) (by decide))) ?_
    refine bind_run e1 ?_
    refine bind_run (hnm _) ?_
    refine bind_run (make_run (by exact hn0) _) ?_
    rw [hrn, ← hN]
    simp only [St.adv]
    rw [← hh1]
    refine bind_run (inScope_run (sc := b!"parser_parse_extern_link_body" :: sc) r2 rfl) ?_
    refine bind_run (upd_run (s := ⟨s.idx + 2 + (inner.length + 2), h', sc⟩) ⟨hn0, by show s.heap.next < h'.next; omega⟩) ?_
    simp only []
    rw [hx1, show { N with body := h1.next } = M by rw [hN, hM], ← hh3, pureP, show s.idx + 2 + (inner.length + 2) = s.idx + (inner.length + 4) by omega]
  · refine a1.trans ?_
    refine (r6.mono (Nat.le_refl _) (by omega)).trans ?_
    rw [hh3]
    exact agree_changed (by omega) (by omega) (.inr (Nat.le_refl _))
  · unfold Single
    rw [hc3, hM]
    exact ⟨rfl, rfl⟩
  · intro E par f' k w1 w2 w3 w4 hf
    have hfy : Fits y := (Fits.append (Fits.append hf).1).2
    rw [hc3, hM] at w3
    have hg : Agree h1.next h3.next h3 E.h := fun q q1 q2 => w1 q (by omega) q2 (by omega)
    have hb := hst.says E hg hfy
    refine (C48_extern (e := E) (n := E.h.cell s.heap.next) (t := y) ⟨w2, rfl, by rw [w3]⟩ (fun _ => by rw [w3]; exact hb)).print' ?_ hf
    rw [nameText_of (by rw [w3]; exact hne), w3, if_neg (by show h1.next ≠ 0; omega)]
    simp

/-- The declarations of a linkage block are those of a file. -/
theorem DeclToks.linkage {ms : Lex.Macros} {c : Bytes} {next : List Tok} (h : DeclToks ms c .linkage next x ts) : DeclToks ms c .file next x ts := by
  have key : ∀ {specs type name hs}, DeclHead c .linkage specs type name hs → DeclHead c .file specs type name hs := by
    intro specs type name hs hh
    cases hh with
    | mk a1 a2 a3 a4 a5 a6 => exact .mk a1 a2 a3 a4 a5 a6
  cases h with
  | var b1 b2 b3 b4 b5 b6 b7 b8 => exact .var (key b1) b2 b3 b4 b5 b6 b7 b8
  | fn b1 b2 b3 b4 b5 b6 b7 b8 b9 b10 b11 b12 => exact .fn (key b1) b2 b3 b4 b5 b6 b7 b8 b9 b10 b11 b12

/-- The loop that reads what stands in a place. -/
def Place.reader (fuel : Nat) : Place → Reader → Prop
  | .record, R => ∃ nm, R = .body b!"parse_class_struct_body" (classMember (recN fuel) nm)
  | .union, R => R = .union (unionMember (recN fuel))
  | .file, R => ∃ which, which ≠ .Extern_Linkage_Body ∧ R = .body b!"parse_global_nspace" (nspaceMember (recN fuel) which)
  | .linkage, R => R = .body b!"parse_global_nspace" (nspaceMember (recN fuel) .Extern_Linkage_Body)
  | .template, _ => False

theorem Place.common {p : Place} {fuel : Nat} {R : Reader} (h : p.reader fuel R) :
    R.member .NewLine = constant .NewLine Env.fmtNewline ∧ R.member .Comment = comment ∧ (∀ k : RecordKind, R.member k.tok = (recN fuel).complicated k.tok) ∧
      R.member .Decl_Enum = (recN fuel).complicated .Decl_Enum ∧ R.member .Decl_Union = (recN fuel).complicated .Decl_Union := by
  cases p with
  | record => obtain ⟨nm, rfl⟩ := h; exact ⟨rfl, rfl, fun k => by cases k <;> rfl, rfl, rfl⟩
  | union => cases h; exact ⟨rfl, rfl, fun k => by cases k <;> rfl, rfl, rfl⟩
  | file => obtain ⟨which, -, rfl⟩ := h; exact ⟨rfl, rfl, fun k => by cases k <;> rfl, rfl, rfl⟩
  | linkage => cases h; exact ⟨rfl, rfl, fun k => by cases k <;> rfl, rfl, rfl⟩
  | template => exact h.elim

/-- Directives. -/
theorem Place.directives {p : Place} {fuel : Nat} {R : Reader} (h : p.reader fuel R) :
    R.member .Preprocess_Pragma = pragma ∧ R.member .Preprocess_Define = define ∧ (∀ {ty w v}, Tests ty w v → R.member ty = preprocessCond) ∧
      R.member .Preprocess_Else = constant .Preprocess_Else Env.preElse ∧ R.member .Preprocess_EndIf = constant .Preprocess_EndIf Env.preEndif ∧
      (p ≠ .union → R.member .Preprocess_Include = parseInclude ∧ R.member .StaticAssert = staticAssert ∧
        R.member .Preprocess_Unsupported = simplePreprocess .Preprocess_Unsupported ∧
        ∃ q f, R = .body q f ∧ (q = b!"parse_global_nspace" ∨ q = b!"parse_class_struct_body")) := by
  cases p with
  | record => obtain ⟨nm, rfl⟩ := h; exact ⟨rfl, rfl, fun k => by cases k <;> rfl, rfl, rfl, fun _ => ⟨rfl, rfl, rfl, _, _, rfl, .inr rfl⟩⟩
  | union => cases h; exact ⟨rfl, rfl, fun k => by cases k <;> rfl, rfl, rfl, fun hh => absurd rfl hh⟩
  | file => obtain ⟨which, -, rfl⟩ := h; exact ⟨rfl, rfl, fun k => by cases k <;> rfl, rfl, rfl, fun _ => ⟨rfl, rfl, rfl, _, _, rfl, .inl rfl⟩⟩
  | linkage => cases h; exact ⟨rfl, rfl, fun k => by cases k <;> rfl, rfl, rfl, fun _ => ⟨rfl, rfl, rfl, _, _, rfl, .inl rfl⟩⟩
  | template => exact h.elim

theorem Beyond.append (h : Beyond ts) : Beyond (ts ++ more) := by
  induction h with
  | here h1 h2 => exact .here h1 h2
  | skip h1 _ ih => exact .skip h1 ih

/-- A directive. -/
theorem reads_directive {p : Place} {fuel : Nat} {R : Reader} {g : Tok} {us : List Tok} (hp : p.reader fuel R) (hg : g.type = .Preprocess_Hash) (hD : DirectiveToks e.ms e.mem p y us)
    (hr : Reads e rest n R ts x) : Reads e rest n R (g :: us ++ ts) (y ++ x) := by
  obtain ⟨d1, d2, d3, d4, d5, d6⟩ := Place.directives hp
  cases hD with
  | @incl t v fl z hnu ht hv hz =>
    refine reads_hash hg (us := [t, v]) (fun s more _ _ hn h => ⟨t, [v], rfl, by rw [ht]; decide, ?_⟩) hr
    rw [ht, (d6 hnu).1]
    exact (include_gives ht hv hz hn h).within
  | @pragma t v fl z ht hv hz =>
    refine reads_hash hg (us := [t, v]) (fun s more _ _ hn h => ⟨t, [v], rfl, by rw [ht]; decide, ?_⟩) hr
    rw [ht, d1]
    exact (pragma_gives ht hv hz hn h).within
  | @test t w a v fl z ht hf hv hz =>
    refine reads_hash hg (us := [t, v]) (fun s more _ _ hn h => ⟨t, [v], rfl, (fun hh => by rw [hh] at ht; cases ht), ?_⟩) hr
    rw [d3 ht]
    exact (test_gives ht hf hv hz hn h).within
  | @otherwise t ht =>
    refine reads_hash_const hg (us := [t]) (o := e.preElse) (by simp) (fun s more h => ⟨t, [], rfl, by rw [ht]; decide, ?_⟩) (fun h hs => .otherwise hs.otherwise) hr
    have := constant_run (f := Env.preElse) h
    rw [ht] at this ⊢
    rw [d4]
    exact this
  | @endif t ht =>
    refine reads_hash_const hg (us := [t]) (o := e.preEndif) (by simp) (fun s more h => ⟨t, [], rfl, by rw [ht]; decide, ?_⟩) (fun h hs => .endif hs.endif) hr
    have := constant_run (f := Env.preEndif) h
    rw [ht] at this ⊢
    rw [d5]
    exact this
  | @define t nt fl name m v z ht hN hne hm hF hT =>
    refine reads_hash hg (us := [t, nt, v]) (fun s more _ _ hn h => ⟨t, [nt, v], rfl, by rw [ht]; decide, ?_⟩) hr
    rw [ht, d2]
    exact define_gives ht hN hne hm hF hT hn h
  | @function t nt fl name m px ps v z ht hN hne hm hF hP hT =>
    refine reads_hash hg (us := t :: nt :: ps ++ [v]) (fun s more _ _ hn h => ⟨t, nt :: ps ++ [v], rfl, by rw [ht]; decide, ?_⟩) hr
    rw [ht, d2]
    exact defineFn_gives ht hN hne hm hF hP hT hn (by simpa using h)

/-- Outside unions. -/
theorem Place.outside {p : Place} {fuel : Nat} {R : Reader} (h : p.reader fuel R) (hp : p ≠ .union) :
    ∃ q f, R = .body q f ∧ R.member .Decl_Using = parseUsing ∧ R.member .Decl_Typedef = (recN fuel).typedef ∧ R.member .Decl_Template = (recN fuel).template := by
  cases p with
  | record => obtain ⟨nm, rfl⟩ := h; exact ⟨_, _, rfl, rfl, rfl, rfl⟩
  | union => exact absurd rfl hp
  | file => obtain ⟨which, -, rfl⟩ := h; exact ⟨_, _, rfl, rfl, rfl, rfl⟩
  | linkage => cases h; exact ⟨_, _, rfl, rfl, rfl, rfl⟩
  | template => exact h.elim

/-- Places where every declaration is searched for a constructor's name. -/
def Place.global : Place → Prop
  | .record | .union | .template => False
  | .file | .linkage => True

theorem VarToks.starts {c : Bytes} (h : VarToks c x ts) : ∃ t tl, ts = t :: tl ∧ (t.type ∈ typeStarts ∨ t.type ∈ varSpecs.map specTok) := by
  obtain ⟨h1, h2, h3, hT, -⟩ := h
  cases h1 with
  | nil =>
    obtain ⟨f, tl, e1, -, e3⟩ := hT.starts
    subst e1
    exact ⟨f, _, rfl, .inl e3⟩
  | @cons x l t ts' hx _ => exact ⟨t, _, rfl, .inr (by rw [hx.type]; exact List.mem_map_of_mem (h2 x List.mem_cons_self))⟩

theorem Place.called {p : Place} {fuel : Nat} {R : Reader} {sc : List Bytes} (h : p.reader fuel R) (hp : p ≠ .union) (hS : p.global → Scan e) (hsc : R.scope sc) : CalledFrom e sc := by
  cases p with
  | record =>
    obtain ⟨nm, rfl⟩ := h
    exact .inl (by rw [show sc.head? = some b!"parse_class_struct_body" from hsc]; decide)
  | union => exact absurd rfl hp
  | file => exact .inr (hS trivial)
  | linkage => exact .inr (hS trivial)
  | template => exact h.elim

theorem TemplateHead.first {c : Bytes} (h : TemplateHead c x ts) : ∃ t tl, ts = t :: tl ∧ t.type = .Decl_Template := by
  cases h with
  | mk ht _ => exact ⟨_, _, rfl, ht⟩

theorem template_record {r : Rec} {k : RecordKind} {m : Nat} (h : Here e s (t :: ts) rest) (ht : t.type = k.tok)
    (hg : ∀ sc, Gives (classStruct r k.tok false) e ⟨s.idx, s.heap, sc⟩ m y) : Gives (templateBody r) e s m y := by
  refine templateBody_at (f := inScope k.proc (classStruct r k.tok false)) h (RecordKind.fmt ht).1 ?_ (Gives.scope (hg _))
  cases k with
  | cls => exact .inl ⟨ht, rfl⟩
  | struct => exact .inr (.inl ⟨ht, rfl⟩)

/-- A templated member. -/
theorem reads_template {p : Place} {fuel : Nat} {hx : Bytes} {hs us : List Tok} {R : Reader} (hp : p.reader (fuel + 1) R) (hnu : p ≠ .union) (hT : TemplateHead e.mem hx hs)
    (hb : ∀ (s : St) (sc : List Bytes) (more : List Tok), R.scope sc → s.scope = b!"parser_parse_template" :: sc → n ≤ s.heap.next → Consts e n s.heap → Stop more rest → 0 < s.heap.next →
      Here e s (us ++ (ts ++ more)) rest → Gives (templateBody (recN fuel)) e s us.length y)
    (hr : Reads e rest n R ts x) : Reads e rest n R (hs ++ us ++ ts) (hx ++ y ++ x) := by
  obtain ⟨t, tl, ht1, ht2⟩ := hT.first
  refine reads_gives (us := hs ++ us) ?_ (by rw [ht1]; simp) hr
  intro s more hsc hc hz h0 h
  refine ⟨t, tl ++ us, by rw [ht1]; rfl, by rw [ht2]; decide, ?_⟩
  rw [ht2, (Place.outside hp hnu).choose_spec.choose_spec.2.2.2]
  refine Gives.within ?_
  have h' : Here e s (hs ++ (us ++ (ts ++ more))) rest := by simpa using h
  refine template_gives (r := recN fuel) hT h0 h' fun g g1 g2 g3 => ?_
  have hin := hc.inside
  exact hb _ s.scope more hsc rfl (by show n ≤ g.next; omega) (hc.keep (g1.mono (Nat.le_refl _) hin) g2) hz (by show 0 < g.next; omega) g3

/-- The members of a class or struct, of a union, of a namespace, of a linkage block or of a file. -/
theorem members_reads {p : Place} (hM : MembersToks e.ms e.mem p x ts) : (p.global → Scan e) → ∀ (fuel : Nat) (R : Reader), p.reader fuel R → ts.length < fuel → 0 < n →
    Reads e rest n R ts x := by
  induction hM with
  | nil => exact fun _ _ _ _ _ _ => reads_nil
  | @newline p t x ts ht _ ih =>
    intro hS fuel R hp hf hn
    refine reads_const (us := [t]) (o := e.fmtNewline) (by simp) ?_ (fun h hs => .newline hs.newline) (by simp) (ih hS fuel R hp (by simp at hf; omega) hn)
    intro s more h
    refine ⟨t, [], rfl, by rw [ht]; decide, ?_⟩
    have := constant_run (f := Env.fmtNewline) h
    rw [ht] at this ⊢
    rw [(Place.common hp).1]
    exact this
  | @comment p t fl y x ts ht _ ih =>
    intro hS fuel R hp hf hn
    refine reads_gives (us := [t]) ?_ (by simp) (ih hS fuel R hp (by simp at hf; omega) hn)
    intro s more hsc hc hz h0 h
    refine ⟨t, [], rfl, by rw [ht.type]; decide, ?_⟩
    rw [ht.type, (Place.common hp).2.1]
    exact (comment_gives ht h0 h).within
  | @semicolon p t x ts hnu ht _ ih =>
    intro hS fuel R hp hf hn
    have ih := ih hS fuel R hp (by simp at hf; omega) hn
    obtain ⟨q, f, rfl, -⟩ := Place.outside hp hnu
    exact reads_semi ht ih
  | @label t u y x ts ht hu _ ih =>
    intro hS fuel R hp hf hn
    have ih := ih hS fuel R hp (by simp at hf; omega) hn
    generalize htt : t.type = tt at ht
    cases ht with
    | pub =>
      refine reads_const (us := [t, u]) (o := e.accessPublic) (by simp) ?_ (fun h hs => .label (by rw [hs.pub.1]; simp) hs.pub.2) (by simp) ih
      intro s more h
      refine ⟨t, [u], rfl, by rw [htt]; decide, ?_⟩
      have := label_run (f := Env.accessPublic) h hu
      rw [htt] at this ⊢
      obtain ⟨nm, rfl⟩ := hp
      exact this
    | pro =>
      refine reads_const (us := [t, u]) (o := e.accessProtected) (by simp) ?_ (fun h hs => .label (by rw [hs.pro.1]; simp) hs.pro.2) (by simp) ih
      intro s more h
      refine ⟨t, [u], rfl, by rw [htt]; decide, ?_⟩
      have := label_run (f := Env.accessProtected) h hu
      rw [htt] at this ⊢
      obtain ⟨nm, rfl⟩ := hp
      exact this
    | pri =>
      refine reads_const (us := [t, u]) (o := e.accessPrivate) (by simp) ?_ (fun h hs => .label (by rw [hs.pri.1]; simp) hs.pri.2) (by simp) ih
      intro s more h
      refine ⟨t, [u], rfl, by rw [htt]; decide, ?_⟩
      have := label_run (f := Env.accessPrivate) h hu
      rw [htt] at this ⊢
      obtain ⟨nm, rfl⟩ := hp
      exact this
  | @directive p g us y x ts hg hD _ ih =>
    intro hS fuel R hp hf hn
    exact reads_directive hp hg hD (ih hS fuel R hp (by simp at hf; omega) hn)
  | @other p g t fl y x ts hnu hg ht hy hm hb _ ih =>
    intro hS fuel R hp hf hn
    obtain ⟨-, -, d3, q, f, hq, hq2⟩ := (Place.directives hp).2.2.2.2.2 hnu
    refine reads_hash hg (us := [t]) (fun s more hsc hz hn h => ⟨t, [], rfl, by rw [ht.type]; decide, ?_⟩) (ih hS fuel R hp (by simp at hf; omega) hn)
    rw [ht.type, d3]
    have hsc' : s.scope.head? = some q := by rw [hq] at hsc; exact hsc
    refine (other_gives (ts := ts ++ more) ht hy hm hsc' hq2 ?_ hn h).within
    rcases hb with rfl | hb
    · rcases hz.ends with rfl | ⟨z, l, rfl, hz'⟩
      · exact .inl rfl
      · exact .inr (.here (by rw [hz']; decide) (by rw [hz']; decide))
    · exact .inr hb.append
  | @assertion p t o vs z u y x ts hnu ht ho hv hz hu hx hx0 hxl _ ih =>
    intro hS fuel R hp hf hn
    rw [show t :: o :: vs ++ z :: u :: ts = (t :: o :: vs ++ [z, u]) ++ ts by simp]
    refine reads_gives (us := t :: o :: vs ++ [z, u]) ?_ (by simp) (ih hS fuel R hp (by simp at hf; omega) hn)
    intro s more hsc hc hzz h0 h
    refine ⟨t, _, rfl, by rw [ht]; decide, ?_⟩
    rw [ht, ((Place.directives hp).2.2.2.2.2 hnu).2.1]
    exact (static_gives ht ho hv hz hu hx hx0 hxl h0 (more := ts ++ more) (by simpa using h)).within
  | @decl p us y x ts hnu hD _ ih =>
    intro hS fuel R hp hf hn
    have hne : us ≠ [] := by
      cases hD with
      | var => simp
      | fn hH =>
        cases hH with
        | mk _ _ _ _ _ hN => cases hN; simp
    refine reads_gives (us := us) ?_ hne (ih hS fuel R hp (by simp at hf; omega) hn)
    intro s more hsc hc hz h0 h
    cases p with
    | record =>
      obtain ⟨nm, rfl⟩ := hp
      obtain ⟨f, tl, g1, g2, g3, g4⟩ := member_run (r := recN fuel) (nm := nm) (more := more) hD hz.behind.1 hz.behind.2 h0 h
      exact ⟨f, tl, g1, g3, g4.within⟩
    | union => exact absurd rfl hnu
    | file =>
      obtain ⟨which, -, rfl⟩ := hp
      obtain ⟨f, tl, g1, g2, g3, g4⟩ := nspaceMember_run (r := recN fuel) (which := which) (more := more) (hS trivial) hD hz.behind h0 h
      exact ⟨f, tl, g1, g3, g4.within⟩
    | template => exact hp.elim
    | linkage =>
      cases hp
      obtain ⟨f, tl, g1, g2, g3, g4⟩ := nspaceMember_run (r := recN fuel) (which := .Extern_Linkage_Body) (more := more) (hS trivial) hD.linkage hz.behind h0 h
      exact ⟨f, tl, g1, g3, g4.within⟩
  | @alias p us y x ts hnu hA hq _ ih =>
    intro hS fuel R hp hf hn
    obtain ⟨l, u, hus, hu⟩ := hA.last
    have hne : us ≠ [] := by rw [hus]; simp
    refine reads_gives (us := us) ?_ hne (ih hS fuel R hp (by simp at hf; omega) hn)
    intro s more hsc hc hz h0 h
    obtain ⟨fuel, rfl⟩ : ∃ m, fuel = m + 1 := ⟨fuel - 1, by omega⟩
    obtain ⟨t, tl, g1, g2⟩ := alias_gives (more := ts ++ more) hA (fun v hv => quiet_of (hq v hv) hz.behind) h0 (by simpa using h)
    rcases g2 with ⟨g2, g3⟩ | ⟨g2, g3⟩
    · refine ⟨t, tl, g1, by rw [g2]; decide, ?_⟩
      rw [g2, (Place.outside hp hnu).choose_spec.choose_spec.2.1]
      exact g3.within
    · refine ⟨t, tl, g1, by rw [g2]; decide, ?_⟩
      rw [g2, (Place.outside hp hnu).choose_spec.choose_spec.2.2.1]
      exact (g3 (recN fuel)).within
  | @forward p k t i name u x ts ht hi hu hq _ ih =>
    intro hS fuel R hp hf hn
    refine reads_gives (us := [t, i, u]) (y := k.word ++ name ++ b!";\n") ?_ (by simp) (ih hS fuel R hp (by simp at hf; omega) hn)
    intro s more hsc hc hz h0 h
    obtain ⟨fuel, rfl⟩ : ∃ m, fuel = m + 1 := ⟨fuel - 1, by omega⟩
    refine ⟨t, [i, u], rfl, by rw [ht]; cases k <;> decide, ?_⟩
    have hN : QualToks e.mem name [i] := .mk (l := []) hi (by simp [Parts]) ⟨i, i, rfl, rfl, by rw [hi.1.len]; omega, hi.1.text⟩ hi.2
    have : R.member t.type = complicatedWith (recN fuel) k.tok := by
      rw [ht]
      exact (Place.common hp).2.2.1 k
    rw [this]
    refine Gives.within ?_
    exact complicated_forward ht hi.1.type hu.type h fun sc => forward_gives (ns := [i]) ht hN hu (quiet_of hq hz.behind) h0 (h.heap s.heap sc)
  | @record p k hx hs o y inner z' u x ts hH ho hM hb hz' hu hq _ ih1 ih2 =>
    intro hS fuel R hp hf hn
    have e1 : hs ++ o :: inner ++ z' :: u :: ts = (hs ++ o :: inner ++ [z', u]) ++ ts := by simp
    have hlen : (hs ++ o :: inner ++ z' :: u :: ts).length = hs.length + inner.length + ts.length + 3 := by simp; omega
    rw [hlen] at hf
    rw [e1]
    refine reads_gives (us := hs ++ o :: inner ++ [z', u]) (y := hx ++ b!"\n{\n" ++ y ++ b!"\n};\n") ?_ (by simp) (ih2 hS fuel R hp (by omega) hn)
    intro s more hsc hc hz h0 h
    obtain ⟨fuel, rfl⟩ : ∃ m, fuel = m + 1 := ⟨fuel - 1, by omega⟩
    obtain ⟨t, tl, hs1, ht⟩ : ∃ t tl, hs = t :: tl ∧ t.type = k.tok := hH.first
    have h' : Here e s (hs ++ o :: inner ++ z' :: u :: (ts ++ more)) rest := by simpa using h
    refine ⟨t, tl ++ o :: inner ++ [z', u], by rw [hs1]; rfl, by rw [ht]; cases k <;> decide, ?_⟩
    have : R.member t.type = complicatedWith (recN fuel) k.tok := by
      rw [ht]
      exact (Place.common hp).2.2.1 k
    rw [this]
    refine Gives.within ?_
    refine complicated_record hH ho hb hz' hu h' fun sc => ?_
    have hl : (hs ++ o :: inner ++ [z', u]).length = hs.length + (inner.length + 3) := by simp
    rw [hl]
    have hin := hc.inside
    exact record_gives (n := n) hH (fun nm => ih1 (fun hh => hh.elim) fuel _ ⟨nm, rfl⟩ (by omega) hn) ho hz'.type hu (quiet_of hq hz.behind) (by exact hin) h0 hc (h'.heap s.heap sc)
  | @enumFwd p t i name u x ts ht hi hu hq _ ih =>
    intro hS fuel R hp hf hn
    refine reads_gives (us := [t, i, u]) (y := b!"enum " ++ name ++ b!";\n") ?_ (by simp) (ih hS fuel R hp (by simp at hf; omega) hn)
    intro s more hsc hc hz h0 h
    obtain ⟨fuel, rfl⟩ : ∃ m, fuel = m + 1 := ⟨fuel - 1, by omega⟩
    refine ⟨t, [i, u], rfl, by rw [ht]; decide, ?_⟩
    have : R.member t.type = complicatedWith (recN fuel) .Decl_Enum := by
      rw [ht]
      exact (Place.common hp).2.2.2.1
    rw [this]
    refine Gives.within ?_
    refine complicated_short (by rw [ht]; decide) hi.1.type hu.type h fun sc => ?_
    exact enum_gives (s := ⟨s.idx, s.heap, sc⟩) (.forward (.plain ht hi) hu) (fun v hv => by cases hv; exact quiet_of hq hz.behind) h0 (by exact h.heap s.heap sc)
  | @enumDef p hx hs o y inner z' u x ts hH ho hE hb hz' hu hq _ ih =>
    intro hS fuel R hp hf hn
    have e1 : hs ++ o :: inner ++ z' :: u :: ts = (hs ++ o :: inner ++ [z', u]) ++ ts := by simp
    have hlen : (hs ++ o :: inner ++ z' :: u :: ts).length = hs.length + inner.length + ts.length + 3 := by simp; omega
    rw [hlen] at hf
    rw [e1]
    refine reads_gives (us := hs ++ o :: inner ++ [z', u]) (y := hx ++ b!"\n{\n" ++ y ++ b!"\n};\n") ?_ (by simp) (ih hS fuel R hp (by omega) hn)
    intro s more hsc hc hz h0 h
    obtain ⟨fuel, rfl⟩ : ∃ m, fuel = m + 1 := ⟨fuel - 1, by omega⟩
    obtain ⟨t, tl, hs1, ht⟩ := hH.first
    have h' : Here e s (hs ++ o :: inner ++ z' :: u :: (ts ++ more)) rest := by simpa using h
    refine ⟨t, tl ++ o :: inner ++ [z', u], by rw [hs1]; rfl, by rw [ht]; decide, ?_⟩
    have : R.member t.type = complicatedWith (recN fuel) .Decl_Enum := by
      rw [ht]
      exact (Place.common hp).2.2.2.1
    rw [this]
    refine Gives.within ?_
    refine complicated_braces (by rw [hs1]; simp) hH.types ho hb hz' hu h' fun sc => ?_
    refine enum_gives (s := ⟨s.idx, s.heap, sc⟩) (more := ts ++ more) (.mk hH ho hE hz' hu) (fun v hv => ?_) h0 (by exact h.heap s.heap sc)
    rw [show hs ++ o :: inner ++ [z', u] = (hs ++ o :: inner ++ [z']) ++ [u] by simp, List.getLast?_concat] at hv
    cases hv
    exact quiet_of hq hz.behind
  | @var us y x ts hV hq _ ih =>
    intro hS fuel R hp hf hn
    cases hp
    have hne : us ≠ [] := by cases hV; simp
    refine reads_gives (us := us) ?_ hne (ih hS fuel _ rfl (by simp at hf; omega) hn)
    intro s more hsc hc hz h0 h
    obtain ⟨t, tl, g1, g2⟩ := hV.starts
    refine ⟨t, tl, g1, ?_, ?_⟩
    · revert g2
      generalize t.type = ty
      cases ty <;> decide
    · have : (Reader.union (unionMember (recN fuel))).member t.type = parseVariable := by
        show unionMember (recN fuel) t.type = parseVariable
        revert g2
        generalize t.type = ty
        cases ty <;> first | exact fun _ => rfl | (intro hh; exact absurd hh (by decide))
      rw [this]
      refine Gives.within ?_
      refine parseVariable_run (more := ts ++ more) hV (fun u hu v hv => ?_) h0 h
      cases ts with
      | cons w ws => exact hq u hu v hv
      | nil =>
        cases more with
        | nil => cases hv
        | cons w ws => exact fun hh => (hz.behind.2 v hv).1 hh.1
  | @union p hx hs o y inner z' u x ts hH ho hM hb hz' hu _ ih1 ih2 =>
    intro hS fuel R hp hf hn
    have e1 : hs ++ o :: inner ++ z' :: u :: ts = (hs ++ o :: inner ++ [z', u]) ++ ts := by simp
    have hlen : (hs ++ o :: inner ++ z' :: u :: ts).length = hs.length + inner.length + ts.length + 3 := by simp; omega
    rw [hlen] at hf
    rw [e1]
    refine reads_gives (us := hs ++ o :: inner ++ [z', u]) (y := hx ++ b!"\n{\n" ++ y ++ b!"\n};\n") ?_ (by simp) (ih2 hS fuel R hp (by omega) hn)
    intro s more hsc hc hz h0 h
    obtain ⟨fuel, rfl⟩ : ∃ m, fuel = m + 1 := ⟨fuel - 1, by omega⟩
    obtain ⟨t, tl, hs1, ht⟩ := hH.first
    have h' : Here e s (hs ++ o :: inner ++ z' :: u :: (ts ++ more)) rest := by simpa using h
    refine ⟨t, tl ++ o :: inner ++ [z', u], by rw [hs1]; rfl, by rw [ht]; decide, ?_⟩
    have : R.member t.type = complicatedWith (recN fuel) .Decl_Union := by
      rw [ht]
      exact (Place.common hp).2.2.2.2
    rw [this]
    refine Gives.within ?_
    refine complicated_braces (by rw [hs1]; simp) hH.types ho hb hz' hu h' fun sc => ?_
    have hl : (hs ++ o :: inner ++ [z', u]).length = hs.length + (inner.length + 3) := by simp
    rw [hl]
    have hin := hc.inside
    exact union_gives (n := n) hH (ih1 (fun hh => hh.elim) fuel _ rfl (by omega) hn) ho hz'.type hu.type (by exact hin) h0 hc (h'.heap s.heap sc)
  | @space p t name ns o y inner z' x ts hpp ht hN ho hM hz' _ ih1 ih2 =>
    intro hS fuel R hp hf hn
    have e1 : t :: ns ++ o :: inner ++ z' :: ts = (t :: ns ++ o :: inner ++ [z']) ++ ts := by simp
    have hlen : (t :: ns ++ o :: inner ++ z' :: ts).length = ns.length + inner.length + ts.length + 3 := by simp; omega
    rw [hlen] at hf
    rw [e1]
    refine reads_gives (us := t :: ns ++ o :: inner ++ [z']) (y := b!"namespace " ++ name ++ b!"\n{\n" ++ y ++ b!"\n}\n") ?_ (by simp) (ih2 hS fuel R hp (by omega) hn)
    intro s more hsc hc hz h0 h
    obtain ⟨fuel, rfl⟩ : ∃ m, fuel = m + 1 := ⟨fuel - 1, by omega⟩
    refine ⟨t, ns ++ o :: inner ++ [z'], rfl, by rw [ht]; decide, ?_⟩
    have hSc : Scan e := hS (by rcases hpp with rfl | rfl <;> trivial)
    have hmem : R.member t.type = parseNamespace (recN (fuel + 1)) := by
      rw [ht]
      rcases hpp with rfl | rfl
      · obtain ⟨which, -, rfl⟩ := hp
        rfl
      · cases hp
        rfl
    rw [hmem]
    have hl : (t :: ns ++ o :: inner ++ [z']).length = ns.length + inner.length + 3 := by simp; omega
    rw [hl]
    have h' : Here e s (t :: ns ++ o :: inner ++ z' :: (ts ++ more)) rest := by simpa using h
    have hin := hc.inside
    have hb := hz.behind.1
    exact (namespace_gives (n := n) (r' := recN fuel) rfl ht hN ho (ih1 (fun _ => hSc) fuel _ ⟨.Namespace_Body, by decide, rfl⟩ (by omega) hn) hz' (by simp at hb ⊢; omega) (by exact hin) h0 hc h').within
  | @linkage t l fl name o y inner z' x ts ht hL hne ho hM hz' _ ih1 ih2 =>
    intro hS fuel R hp hf hn
    have e1 : t :: l :: o :: inner ++ z' :: ts = (t :: l :: o :: inner ++ [z']) ++ ts := by simp
    have hlen : (t :: l :: o :: inner ++ z' :: ts).length = inner.length + ts.length + 4 := by simp; omega
    rw [hlen] at hf
    rw [e1]
    refine reads_gives (us := t :: l :: o :: inner ++ [z']) (y := b!"extern \"" ++ name ++ b!"\"\n{\n" ++ y ++ b!"\n}\n") ?_ (by simp) (ih2 hS fuel R hp (by omega) hn)
    intro s more hsc hc hz h0 h
    obtain ⟨fuel, rfl⟩ : ∃ m, fuel = m + 1 := ⟨fuel - 1, by omega⟩
    refine ⟨t, l :: o :: inner ++ [z'], rfl, by rw [ht]; decide, ?_⟩
    obtain ⟨which, hw, rfl⟩ := hp
    have hmem : (Reader.body b!"parse_global_nspace" (nspaceMember (recN (fuel + 1)) which)).member t.type = externLink (recN (fuel + 1)) := by
      rw [ht]
      show (if which = .Extern_Linkage_Body then fail else externLink (recN (fuel + 1))) = _
      rw [if_neg hw]
    rw [hmem]
    have hl : (t :: l :: o :: inner ++ [z']).length = inner.length + 4 := by simp
    rw [hl]
    have h' : Here e s (t :: l :: o :: inner ++ z' :: (ts ++ more)) rest := by simpa using h
    have hin := hc.inside
    have hb := hz.behind.1
    exact extern_gives (n := n) (r' := recN fuel) rfl ht hL hne ho (ih1 (fun _ => hS trivial) fuel _ rfl (by omega) hn) hz' (by simp at hb ⊢; omega) (by exact hin) h0 hc h'
  | @tdecl p hx hs us y x ts hnu hT hD _ ih =>
    intro hS fuel R hp hf hn
    obtain ⟨t, tl, ht1, ht2⟩ := hT.first
    obtain ⟨fuel, rfl⟩ : ∃ m, fuel = m + 1 := ⟨fuel - 1, by omega⟩
    refine reads_template hp hnu hT ?_ (ih hS _ R hp (by simp at hf; omega) hn)
    intro s sc more h1 h2 h3 h4 h5 h6 h7
    obtain ⟨f, fl, g1, g2, g3, g4⟩ := templateOther_gives (more := more) hD (Place.called hp hnu hS h1) h5.behind h6 h2 h7
    rw [g1] at h7
    exact templateBody_at h7 g2 (.inr (.inr (.inr (.inr ⟨g3, rfl⟩)))) g4
  | @talias p hx hs us y x ts hnu hT hA ha hq _ ih =>
    intro hS fuel R hp hf hn
    obtain ⟨fuel, rfl⟩ : ∃ m, fuel = m + 1 := ⟨fuel - 1, by omega⟩
    refine reads_template hp hnu hT ?_ (ih hS _ R hp (by simp at hf; omega) hn)
    intro s sc more h1 h2 h3 h4 h5 h6 h7
    obtain ⟨t, tl, g1, g2⟩ := alias_gives (more := ts ++ more) hA (fun v hv => quiet_of (hq v hv) h5.behind) h6 (by simpa using h7)
    have hat := ha t (by rw [g1]; rfl)
    rcases g2 with ⟨g2, g3⟩ | ⟨g2, g3⟩
    · rw [g1] at h7
      exact templateBody_at h7 (isFmt_of_type hat (by decide) (by decide)) (.inr (.inr (.inr (.inl ⟨hat, rfl⟩)))) g3
    · rw [hat] at g2
      cases g2
  | @tforward p hx hs k t name ns u x ts hnu hT ht hN hu hq _ ih =>
    intro hS fuel R hp hf hn
    obtain ⟨fuel, rfl⟩ : ∃ m, fuel = m + 1 := ⟨fuel - 1, by omega⟩
    refine reads_template hp hnu hT ?_ (ih hS _ R hp (by simp at hf; omega) hn)
    intro s sc more h1 h2 h3 h4 h5 h6 h7
    refine template_record (ts := ns ++ [u] ++ (ts ++ more)) (by simpa using h7) ht fun sc => ?_
    rw [show (t :: ns ++ [u]).length = ns.length + 2 by simp]
    have h8 := h7.heap s.heap sc
    exact forward_gives (more := ts ++ more) ht hN hu (quiet_of hq h5.behind) h6 (by simpa using h8)
  | @trecord p tx tl k hx hs o y inner z' u x ts hnu hT hH ho hM hz' hu hq _ ih1 ih2 =>
    intro hS fuel R hp hf hn
    obtain ⟨fuel, rfl⟩ : ∃ m, fuel = m + 1 := ⟨fuel - 1, by omega⟩
    have hlen : (tl ++ (hs ++ o :: inner ++ [z', u]) ++ ts).length = tl.length + hs.length + inner.length + ts.length + 3 := by simp; omega
    rw [hlen] at hf
    refine reads_template hp hnu hT ?_ (ih2 hS _ R hp (by omega) hn)
    intro s sc more h1 h2 h3 h4 h5 h6 h7
    obtain ⟨t, tl', hs1, ht⟩ := hH.first
    refine template_record (t := t) (ts := tl' ++ o :: inner ++ [z', u] ++ (ts ++ more)) (by rw [hs1] at h7; simpa using h7) ht fun sc => ?_
    rw [show (hs ++ o :: inner ++ [z', u]).length = hs.length + (inner.length + 3) by simp]
    have h8 := h7.heap s.heap sc
    exact record_gives (more := ts ++ more) (n := n) hH (fun nm => ih1 (fun hh => hh.elim) fuel _ ⟨nm, rfl⟩ (by omega) hn) ho hz'.type hu (quiet_of hq h5.behind) h3 h6 h4 (by simpa using h8)
  | @tunion p tx tl hx hs o y inner z' u x ts hnu hT hH ho hM hz' hu _ ih1 ih2 =>
    intro hS fuel R hp hf hn
    obtain ⟨fuel, rfl⟩ : ∃ m, fuel = m + 1 := ⟨fuel - 1, by omega⟩
    have hlen : (tl ++ (hs ++ o :: inner ++ [z', u]) ++ ts).length = tl.length + hs.length + inner.length + ts.length + 3 := by simp; omega
    rw [hlen] at hf
    refine reads_template hp hnu hT ?_ (ih2 hS _ R hp (by omega) hn)
    intro s sc more h1 h2 h3 h4 h5 h6 h7
    obtain ⟨t, tl', hs1, ht⟩ := hH.first
    refine templateBody_at (t := t) (ts := tl' ++ o :: inner ++ [z', u] ++ (ts ++ more)) (by rw [hs1] at h7; simpa using h7) (isFmt_of_type ht (by decide) (by decide)) (.inr (.inr (.inl ⟨ht, rfl⟩))) ?_
    rw [show (hs ++ o :: inner ++ [z', u]).length = hs.length + (inner.length + 3) by simp]
    exact union_gives (more := ts ++ more) (n := n) hH (ih1 (fun hh => hh.elim) fuel _ rfl (by omega) hn) ho hz'.type hu.type h3 h6 h4 (by simpa using h7)

end Verif.Parse
