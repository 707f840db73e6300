import Verif.Proof.ReadBody
/-!
# Running the parser on classes and structs
-/
namespace Verif.Parse
open Verif.Lex (Tok)
open Verif.Ast P
open Verif.Ser hiding Env boundsText isNext

variable {e : Env} {s : St} {t u : Tok} {ts vs more rest : List Tok} {x y : Bytes} {a b n : Nat} {ty : CodeType} {k : RecordKind}

/-- The type of the body. -/
def RecordKind.bodyType : RecordKind → CodeType
  | .cls => .Class_Body
  | .struct => .Struct_Body

/-- The type of a declaration. -/
def RecordKind.fwdType : RecordKind → CodeType
  | .cls => .Class_Fwd
  | .struct => .Struct_Fwd

theorem classBody_run {r : Rec} {nm : Txt} {inner : List Tok} {o z : Tok} (hr : Reads e rest n (.body b!"parse_class_struct_body" (classMember r nm)) inner y) (ho : o.type = .BraceCurly_Open)
    (hz : z.type = .BraceCurly_Close) (hn : n ≤ s.heap.next) (hn0 : 0 < s.heap.next) (hc : Consts e n s.heap) (hm : 1 ≤ (more ++ rest).length)
    (h : Here e s (o :: inner ++ z :: more) rest) :
    ∃ h' ps ys, classBody r k.tok nm e s = .ok (s.heap.next, ⟨s.idx + (inner.length + 2), h', s.scope⟩) ∧ BodyHas k.bodyType s.heap.next h' ps ys ∧ ys.flatten = y ∧
      s.heap.next < h'.next ∧ Agree 1 s.heap.next s.heap h' := by
  have h0 := h.heap s.heap (b!"parse_class_struct_body" :: s.scope)
  have heat := h0.eat
  rw [ho] at heat
  have hb := bodyHas_new (ty := k.bodyType) hn0
  have hk : Kept s.heap (grown s.heap { type := k.bodyType }) := kept_grown _ _
  have ha : Agree 1 s.heap.next s.heap (grown s.heap { type := k.bodyType }) := agree_kept (Nat.succ_pos _) (Nat.le_refl _) hk
  have hh : Here e ⟨s.idx + 1, grown s.heap { type := k.bodyType }, b!"parse_class_struct_body" :: s.scope⟩ (inner ++ z :: more) rest := (h0.tail.heap _ _).at rfl
  obtain ⟨h', ps, ys, m, r1, r2, r3, r4, r5, r6⟩ := hr k.bodyType s.heap.next ⟨s.idx + 1, grown s.heap { type := k.bodyType }, b!"parse_class_struct_body" :: s.scope⟩ [] [] (z :: more)
    rfl hb hn (hc.keep (ha.mono (Nat.le_refl _) hn) (Nat.le_succ _)) (.brace hz hm) (fun hh => by cases hh) hh
  have r5 : s.heap.next + 1 ≤ h'.next := r5
  have hl := h0.length_le
  simp only [List.length_append, List.length_cons] at hl
  refine ⟨h', ps, ys, inScope_run (sc := b!"parse_class_struct_body" :: s.scope) ?_ rfl, by simpa using r3, r4, by omega, ha.trans r6⟩
  refine bind_run heat ?_
  have hmk := make_run (e := e) (s := (St.mk s.idx s.heap (b!"parse_class_struct_body" :: s.scope)).adv 1) hn0 { type := k.bodyType }
  have hty : (if k.tok = .Decl_Class then CodeType.Class_Body else .Struct_Body) = k.bodyType := by cases k <;> rfl
  rw [hty]
  refine bind_run hmk ?_
  refine bind_run (a := ()) (s' := ⟨s.idx + 1 + inner.length, h', b!"parse_class_struct_body" :: s.scope⟩) ?_ ?_
  · exact bind_run (r2.loop (by omega)) rfl
  · have hz' : Here e ⟨s.idx + 1 + inner.length, h', b!"parse_class_struct_body" :: s.scope⟩ (z :: more) rest := (hh.advN.heap _ _).at rfl
    have := hz'.eat
    rw [hz] at this
    refine bind_run this ?_
    simp only [St.adv, pureP]
    congr 3
    omega

/-- A body whose parent is set. -/
theorem BodyHas.parent {h : Heap} {ps : List Nat} {xs : List Bytes} (hb : BodyHas ty b h ps xs) (p : Nat) : BodyHas ty b (changed h b { h.cell b with parent := p }) ps xs := by
  have hm := hb.mem
  obtain ⟨h1, h2, m, h3, h4⟩ := hb
  have hne : ∀ q, q ≠ b → (changed h b { h.cell b with parent := p }).cell q = h.cell q := fun q hq => by simp [changed, hq]
  have hself : (changed h b { h.cell b with parent := p }).cell b = { h.cell b with parent := p } := by simp [changed]
  have hmem : ∀ q ∈ ps, q ≠ b := fun q hq => by have := (hm q hq).1; omega
  refine ⟨⟨h1.next, h1.valid, by rw [hself]; exact h1.count, ?_, by rw [hself]; exact h1.first, by rw [hself]; exact h1.last, fun q hq => ?_, h1.self, h1.nodup⟩, by rw [hself]; exact h2, m, h3, ?_⟩
  · rw [hself]
    exact h1.chain.congr fun q hq => ⟨h1.chain.valid q hq, by rw [hne q (hmem q hq)]⟩
  · rw [hne q (hmem q hq)]
    exact h1.parents q hq
  · exact h4.keep (Nat.le_refl _) (fun w w1 _ _ => hne w (by omega)) fun q hq => ⟨(h.cell q).back, by rw [hne q (hmem q hq)]⟩

theorem BodyHas.stands {h : Heap} {ps : List Nat} {xs : List Bytes} (hb : BodyHas ty b h ps xs) (ht : plainBody ty = true) : Stands .body b h.next h b xs.flatten :=
  ⟨Nat.le_refl _, hb.body.valid.2, fun _ hE hf => (hb.says hE ht hf).1⟩

/-- What `classStruct` does behind the name and `final`. -/
def afterSpecs (r : Rec) (which : TokType) (inplace : Bool) (mflags attrs : Nat) (name : Txt) (specs : Nat) : P Nat := do
  let (parent, access, is) ← parents
  let body ← if ← check .BraceCurly_Open then classBody r which name else pure 0
  let cmt ← if inplace then pure 0 else endStmt
  let text ← bytes name
  let p : OptsStruct := {
    body := body, parent := parent, parentAccess := access, attributes := attrs, interfaces := is, specifiers := specs, mflags := mflags }
  let c ← if which = .Decl_Class then code fun c h => defClass (h.next + 1) c h text p
    else code fun c h => defStruct (h.next + 1) c h text p
  if cmt ≠ 0 then change fun h => h.upd c fun n => { n with inlineCmt := cmt }
  return c

theorem classStruct_eq (r : Rec) (which : TokType) (ip : Bool) : classStruct r which ip = (do
    let mflags ← exportFlag
    eat which
    let attrs ← attributes
    let name ← if ← check .Identifier then identText else pure ⟨0, 0⟩
    if ← check .Spec_Final then
      let s ← code fun c h => defSpecifier c h .Final
      eat .Spec_Final
      afterSpecs r which ip mflags attrs name s
    else afterSpecs r which ip mflags attrs name 0) := rfl

theorem RecordKind.fmt {t : Tok} (h : t.type = k.tok) : isFmt t = false ∧ t.type ≠ .Module_Export := by
  refine ⟨isFmt_of_type h (by cases k <;> decide) (by cases k <;> decide), ?_⟩
  rw [h]
  cases k <;> decide

theorem bytes_none : Parse.bytes ⟨0, 0⟩ e s = .ok ([], s) := rfl

/-- The token behind the head of a class or struct. -/
structure HeadEnds (c : Bytes) (t : Tok) : Prop where
  name : NameEnds c t
  attr : has t Lex.fAttribute = false
  type : t.type ∉ [TokType.Identifier, .Spec_Final]

theorem headEnds_of {c : Bytes} {fl : Nat} (h : TokIs c t .BraceCurly_Open 0 x ∨ TokIs c t .Statement_End 512 x) : HeadEnds c t := by
  rcases h with h | h
  · refine ⟨⟨isFmt_of_type h.type (by decide) (by decide), by rw [h.type]; decide, fun hh => ?_⟩, by rw [h.has]; rfl, by rw [h.type]; decide⟩
    rw [h.type] at hh
    cases hh
  · refine ⟨⟨isFmt_of_type h.type (by decide) (by decide), by rw [h.type]; decide, fun hh => ?_⟩, by rw [h.has]; rfl, by rw [h.type]; decide⟩
    rw [h.type] at hh
    cases hh

theorem bind_eq {α : Type} {β : Type} {f : P α} {g : α → P β} {x : α} {s s' : St} {o : Res (β × St)} (h : f e s = .ok (x, s')) (h2 : g x e s' = o) : (f >>= g) e s = o := by
  rw [bindP, h]
  exact h2

/-- The keyword and the name. -/
theorem named_run {f : Tok} {ns : List Tok} {name : Bytes} {r : Rec} {ip : Bool} (hf : f.type = k.tok) (hN : QualToks e.mem name ns) (ht : NameEnds e.mem t)
    (h : Here e s (f :: ns ++ t :: more) rest) :
    ∃ nm, classStruct r k.tok ip e s = (do
        if ← check .Spec_Final then
          let s ← code fun c h => defSpecifier c h .Final
          eat .Spec_Final
          afterSpecs r k.tok ip 0 0 nm s
        else afterSpecs r k.tok ip 0 0 nm 0 : P Nat) e ⟨s.idx + (f :: ns).length, s.heap, s.scope⟩ ∧ (∀ s, Parse.bytes nm e s = .ok (name, s)) ∧ name ≠ [] := by
  have h1 : Here e (s.adv 1) (ns ++ t :: more) rest := h.tail
  obtain ⟨i, il, hi1, hi2, r4⟩ := identifier_run hN h1 ht
  obtain ⟨j, jl, z, hj1, hj2⟩ := hN.first
  have hji : j = i := by rw [hj1] at hi1; exact (List.cons.inj hi1).1
  subst hji
  have h1' := h1
  rw [hi1, List.cons_append] at h1'
  have heat := h.eat
  rw [hf] at heat
  refine ⟨⟨j.start, name.length⟩, ?_, fun _ => spanBytes hi2, by cases hN; assumption⟩
  rw [classStruct_eq]
  refine bind_eq (Here.exportFlag h (RecordKind.fmt hf).1 (RecordKind.fmt hf).2) ?_
  refine bind_eq heat ?_
  refine bind_eq (h1'.attributes hj2.plain.1 hj2.plain.2) ?_
  refine bind_eq (h1'.check hj2.plain.1 _) ?_
  simp only [hj2.1.type, decide_true, if_true]
  unfold identText
  refine bind_eq (bind_run r4 (pureP _ _ _)) ?_
  simp only [St.adv, List.length_cons]
  rw [Nat.add_assoc, Nat.add_comm 1]

/-- The head of a class or struct. -/
theorem head_run {hs : List Tok} {hx : Bytes} {r : Rec} {ip : Bool} (hH : RecordName e.mem k hx hs) (ht : HeadEnds e.mem t) (hn : 0 < s.heap.next)
    (h : Here e s (hs ++ t :: more) rest) :
    ∃ nm name l sq h1, classStruct r k.tok ip e s = afterSpecs r k.tok ip 0 0 nm sq e ⟨s.idx + hs.length, h1, s.scope⟩ ∧ (∀ s, Parse.bytes nm e s = .ok (name, s)) ∧
      hx = k.word ++ name ++ ifText (.Final ∈ l) b!" final" ∧ SpecsIn s.heap.next h1.next h1 sq l ∧ Kept s.heap h1 ∧ s.heap.next ≤ h1.next ∧ (k = .cls → name ≠ []) := by
  obtain ⟨ht1, ht2, ht3⟩ := ht
  simp only [List.mem_cons, List.not_mem_nil, or_false, not_or] at ht3
  cases hH with
  | @unnamed f hf =>
    have hf' : f.type = RecordKind.tok .struct := hf
    have heat := h.eat
    rw [hf'] at heat
    refine ⟨⟨0, 0⟩, [], [], 0, s.heap, ?_, fun _ => bytes_none, by simp [ifText, RecordKind.word], by unfold SpecsIn; rw [if_pos rfl], Kept.refl _, Nat.le_refl _, fun hh => by cases hh⟩
    rw [classStruct_eq]
    refine bind_eq (Here.exportFlag h (RecordKind.fmt hf').1 (RecordKind.fmt hf').2) ?_
    refine bind_eq heat ?_
    refine bind_eq (h.tail.attributes ht1.fmt ht2) ?_
    refine bind_eq (h.tail.check ht1.fmt _) ?_
    simp only [ht3.1, decide_false, Bool.false_eq_true, if_false]
    refine bind_eq (pureP _ _ _) ?_
    refine bind_eq (h.tail.check ht1.fmt _) ?_
    simp only [ht3.2, decide_false, Bool.false_eq_true, if_false]
    rfl
  | @named _ f name ns hf hN =>
    obtain ⟨nm, r1, r2, r3⟩ := named_run (r := r) (ip := ip) hf hN ht1 h
    refine ⟨nm, name, [], 0, s.heap, ?_, r2, by simp [ifText], by unfold SpecsIn; rw [if_pos rfl], Kept.refl _, Nat.le_refl _, fun _ => r3⟩
    rw [r1]
    have hh : Here e ⟨s.idx + (f :: ns).length, s.heap, s.scope⟩ (t :: more) rest := h.advN.at rfl
    refine bind_eq (hh.check ht1.fmt _) ?_
    simp only [ht3.2, decide_false, Bool.false_eq_true, if_false]
  | @final _ f name ns u hf hN hu =>
    have h' : Here e s (f :: ns ++ u :: (t :: more)) rest := by simpa using h
    have hfu := isFmt_of_type hu.type (by decide) (by decide)
    obtain ⟨nm, r1, r2, r3⟩ := named_run (r := r) (ip := ip) hf hN ⟨hfu, by rw [hu.type]; decide, fun hh => by rw [hu.type] at hh; cases hh⟩ h'
    have hh : Here e ⟨s.idx + (f :: ns).length, s.heap, s.scope⟩ (u :: t :: more) rest := h'.advN.at rfl
    obtain ⟨h1, q1, q2, -, q4⟩ := C29_def_specifier e.cfg hn .Final
    refine ⟨nm, name, [.Final], s.heap.next, h1, ?_, r2, by simp [ifText], ?_, q4, Nat.le_of_lt q2.valid.2, fun _ => r3⟩
    · rw [r1]
      refine bind_eq (hh.check hfu _) ?_
      simp only [hu.type, decide_true, if_true]
      refine bind_eq (x := s.heap.next) (s' := ⟨s.idx + (f :: ns).length, h1, s.scope⟩) ?_ ?_
      · show (defSpecifier e.cfg s.heap .Final).bind _ = _
        rw [q1]
        rfl
      · have heat := (hh.heap h1 s.scope).eat
        rw [hu.type] at heat
        refine bind_eq heat ?_
        simp only [St.adv, List.length_append, List.length_cons, List.length_nil]
        congr 2
    · unfold SpecsIn
      rw [if_neg (by simp)]
      exact ⟨Nat.le_refl _, q2.valid.2, q2⟩

/-- A class or struct as it is printed. -/
theorem record_says {E : Ser.Env} {p sq body par f q : Nat} {l : List Specifier} {name : Bytes} {h : Heap} (h0 : 0 < a) (ha : Agree a b h E.h) (hv : E.h.Valid p)
    (hp : E.h.cell p = { type := match k with | .cls => CodeType.Class | .struct => .Struct, name := name, specs := sq, body := body, parent := par, front := f, back := q })
    (hx : Neutral E par) (hs : SpecsIn a b h sq l) (hb : Stands .body a b h body y) :
    Says E .code p (k.word ++ name ++ ifText (.Final ∈ l) b!" final" ++ b!"\n{\n" ++ y ++ b!"\n};\n") := by
  intro hf
  have hfy : Fits y := (Fits.append (Fits.append hf).1).2
  have hsl := (SpecsIn.slot (E := E) (hs.agree ha (Nat.le_refl _) (Nat.le_refl _)) h0).1
  have hbp := hb.says E ha hfy
  have h3 : exportText (E.h.cell p) = [] := by rw [hp]; rfl
  have h4 : cmtText E (E.h.cell p) b!" // " b!"" b!"" = [] := by rw [hp]; rfl
  have h6 : attrText E (E.h.cell p) = [] := by rw [hp]; rfl
  have h7 : endText E (E.h.cell p) b!";\n" = b!";\n" := by
    unfold endText
    rw [hp]
    rw [if_neg]
    rintro ⟨g1, g2⟩
    rcases hx with hx | ⟨-, g3, g4⟩
    · exact g1 hx
    · exact g2.elim g3 g4
  cases k with
  | cls =>
    refine (C45_class (e := E) (n := E.h.cell p) (l := l) (t := y) ⟨hv, rfl, by rw [hp]⟩ (by rw [hp]) (by rw [hp]; exact hbp) (by rw [hp]; exact fun hh => absurd rfl hh)
      (by rw [hp]; exact hsl) (by rw [hp]; exact fun hh => absurd rfl hh) (by rw [hp]; exact Neutral.slot hx)).print' ?_ hf
    rw [h3, h4, h6, h7, hp]
    simp [RecordKind.word]
  | struct =>
    refine (C45_struct (e := E) (n := E.h.cell p) (l := l) (t := y) (pt := []) (ps := []) (ts := []) ⟨hv, rfl, by rw [hp]⟩ (by rw [hp]; exact hbp) (by rw [hp]; exact fun hh => absurd rfl hh)
      (by rw [hp]; exact hsl) (by rw [hp]; exact fun hh => absurd rfl hh) (by rw [hp]; exact Neutral.slot hx) (by rw [hp]; exact fun hh => absurd rfl hh)
      (by rw [hp]; exact fun hh => absurd rfl hh) (by rw [hp]; exact (by decide : (0 : Int) ≠ 2))).print' ?_ hf
    have h5 : parentsText E (E.h.cell p) [] [] = [] := by rw [hp]; rfl
    rw [h3, h4, h5, h6, h7, hp]
    simp [RecordKind.word]

/-- A class or struct that is only declared, as it is printed. -/
theorem forward_says {E : Ser.Env} {p par f q : Nat} {name : Bytes} (hv : E.h.Valid p)
    (hp : E.h.cell p = { type := k.fwdType, name := name, parent := par, front := f, back := q })
    (hx : Neutral E par) (hne : name ≠ []) : Says E .code p (k.word ++ name ++ b!";\n") := by
  intro hf
  have h3 : exportText (E.h.cell p) = [] := by rw [hp]; rfl
  have h6 : attrText E (E.h.cell p) = [] := by rw [hp]; rfl
  have hnm : nameText E p = name := by rw [nameText_of (by rw [hp]; exact hne), hp]
  have h7 : ∀ x, endText E (E.h.cell p) x = x := by
    intro x
    unfold endText
    rw [hp]
    rw [if_neg]
    rintro ⟨g1, g2⟩
    rcases hx with hx | ⟨-, g3, g4⟩
    · exact g1 hx
    · exact g2.elim g3 g4
  cases k with
  | cls =>
    refine (C45_class_fwd (e := E) (n := E.h.cell p) ⟨hv, rfl, by rw [hp]; rfl⟩ (by rw [hp]; exact fun hh => absurd rfl hh) (by rw [hp]; exact fun hh => absurd rfl hh)
      (by rw [hp]; exact Neutral.slot hx)).print' ?_ hf
    rw [h3, h6, h7, hnm, hp]
    rfl
  | struct =>
    refine (C45_struct_fwd (e := E) (n := E.h.cell p) ⟨hv, rfl, by rw [hp]; rfl⟩ (by rw [hp]; exact fun hh => absurd rfl hh) (by rw [hp]; exact fun hh => absurd rfl hh)
      (by rw [hp]; exact Neutral.slot hx)).print' ?_ hf
    rw [h3, h6, h7, hnm, hp]
    rfl

/-- The node of a class or struct. -/
def recordNode (k : RecordKind) (name : Bytes) (sq body : Nat) : Node :=
  { type := match k with | .cls => CodeType.Class | .struct => .Struct, name := name, specs := sq, body := body }

/-- The code for a class or struct is made. -/
def defRecord (k : RecordKind) (fuel : Nat) (c : Cfg) (h : Heap) (name : Bytes) (p : OptsStruct) : Out :=
  match k with
  | .cls => defClass fuel c h name p
  | .struct => defStruct fuel c h name p

theorem defRecord_body {h : Heap} {name : Bytes} {sq : Nat} {c : Cfg} {fuel : Nat} (hn : 0 < h.next) (hne : k = .cls → name ≠ []) (hv : h.Valid b) (ht : (h.cell b).type = k.bodyType) :
    ∃ h', defRecord k fuel c h name { body := b, specifiers := sq } = .ok (h.next, h') ∧ h'.next = h.next + 1 ∧ h'.cell h.next = recordNode k name sq b ∧
      ((h'.cell b = { h.cell b with parent := (h'.cell b).parent })) ∧ ∀ q, q ≠ b → q < h.next → h'.cell q = h.cell q := by
  have hb0 : b ≠ 0 := Nat.ne_of_gt hv.1
  have hbn : b ≠ h.next := Nat.ne_of_lt hv.2
  cases k with
  | cls =>
    refine ⟨changed (grown h (recordNode .cls name sq b)) b { h.cell b with parent := h.next }, ?_, rfl, ?_, ?_, ?_⟩
    · show defClass fuel c h name { body := b, specifiers := sq } = _
      have hg : h.make.2.get b = .ok (h.cell b) := by
        rw [get_ok (show h.make.2.Valid b from ⟨hv.1, Nat.lt_succ_of_lt hv.2⟩)]
        simp [Heap.make, hbn]
      unfold defClass guardName guardOpt
      simp only [hne rfl, if_false, if_true, hb0, hg, Res.ok_bind]
      rw [if_pos (by rw [ht]; rfl), finish_eq hn, Res.ok_bind]
      simp only []
      rw [upd_ok (by exact ⟨hv.1, Nat.lt_succ_of_lt hv.2⟩)]
      simp only [Res.ok_bind, addInterfaces]
      congr 2
      unfold changed grown recordNode
      simp [hbn]
    · simp [changed, grown, Ne.symm hbn]
    · simp [changed]
    · intro q h1 h2
      have : q ≠ h.next := by omega
      simp [changed, grown, h1, this]
  | struct =>
    refine ⟨grown h (recordNode .struct name sq b), ?_, rfl, by simp [grown], by simp [grown, hbn], ?_⟩
    · show defStruct fuel c h name { body := b, specifiers := sq } = _
      unfold defStruct guardOpt
      simp only [if_true, hb0, if_false, get_ok hv, Res.ok_bind]
      rw [if_pos (by rw [ht]; rfl), finish_eq hn, Res.ok_bind]
      simp only [Res.ok_bind, addInterfaces]
      rfl
    · intro q h1 h2
      have : q ≠ h.next := by omega
      simp [grown, this]

/-- What `classStruct` does in the end. -/
theorem afterSpecs_body {r : Rec} {nm : Txt} {name : Bytes} {sq : Nat} {inner : List Tok} {o z : Tok} (hnm : ∀ s, Parse.bytes nm e s = .ok (name, s)) (hne : k = .cls → name ≠ [])
    (hr : Reads e rest n (.body b!"parse_class_struct_body" (classMember r nm)) inner y) (ho : TokIs e.mem o .BraceCurly_Open 0 b!"{") (hz : z.type = .BraceCurly_Close) (hu : TokIs e.mem u .Statement_End 512 b!";")
    (hq : Quiet u (more ++ rest)) (hn : n ≤ s.heap.next) (hn0 : 0 < s.heap.next) (hc : Consts e n s.heap)
    (h : Here e s (o :: inner ++ z :: u :: more) rest) :
    ∃ h' ps ys, afterSpecs r k.tok false 0 0 nm sq e s = .ok (h'.next - 1, ⟨s.idx + (inner.length + 3), h', s.scope⟩) ∧ s.heap.next + 2 ≤ h'.next ∧
      Agree 1 s.heap.next s.heap h' ∧ h'.cell (h'.next - 1) = recordNode k name sq s.heap.next ∧
      (∃ g : Heap, g.next + 1 = h'.next ∧ BodyHas k.bodyType s.heap.next g ps ys ∧ Agree 1 g.next g h') ∧ ys.flatten = y := by
  have hof := isFmt_of_type ho.type (by decide) (by decide)
  obtain ⟨h1, ps, ys, r1, r2, r3, r4, r5⟩ := classBody_run (k := k) (more := u :: more) hr ho.type hz hn hn0 hc (by simp) h
  have hh : Here e ⟨s.idx + (inner.length + 2), h1, s.scope⟩ (u :: more) rest := by
    have : Here e s ((o :: inner ++ [z]) ++ u :: more) rest := by simpa using h
    refine (this.advN.heap h1 s.scope).at ?_
    simp [St.adv]
  have hb := r2.body.valid
  obtain ⟨h2, q1, q2, q3, q4, q5⟩ := defRecord_body (fuel := h1.next + 1) (c := e.cfg) (name := name) (sq := sq) (by omega) hne hb r2.type
  have hg : BodyHas k.bodyType s.heap.next (changed h1 s.heap.next { h1.cell s.heap.next with parent := (h2.cell s.heap.next).parent }) ps ys := r2.parent _
  have e1 : h2.next - 1 = h1.next := by omega
  refine ⟨h2, ps, ys, ?_, by omega, ?_, by rw [e1]; exact q3, ⟨_, ?_, hg, ?_⟩, r3⟩
  · unfold afterSpecs
    have hp : parents e s = .ok ((0, 0, []), s) := by
      unfold parents
      refine bind_run (h.check hof _) ?_
      simp only [ho.type, reduceCtorEq, decide_false, Bool.false_eq_true, if_false]
      rfl
    refine bind_run hp ?_
    refine bind_run (h.check hof _) ?_
    simp only [ho.type, decide_true, if_true]
    refine bind_run r1 ?_
    simp only [Bool.false_eq_true, if_false]
    refine bind_run (endStmt_run hu hq hh) ?_
    refine bind_run (hnm _) ?_
    have hif : ∀ (F : Nat → P Nat), (if k.tok = .Decl_Class then (code fun c h => defClass (h.next + 1) c h name { body := s.heap.next, specifiers := sq }) >>= F
        else (code fun c h => defStruct (h.next + 1) c h name { body := s.heap.next, specifiers := sq }) >>= F)
        = ((code fun c h => defRecord k (h.next + 1) c h name { body := s.heap.next, specifiers := sq }) >>= F) := by
      intro F
      cases k <;> rfl
    rw [hif]
    refine bind_run (a := h1.next) (s' := ⟨s.idx + (inner.length + 3), h2, s.scope⟩) ?_ ?_
    · show (defRecord k (h1.next + 1) e.cfg h1 name _).bind _ = _
      rw [q1]
      rfl
    · simp only [ne_eq, not_true_eq_false, if_false, e1]
      rfl
  · refine r5.trans fun q w1 w2 => ⟨⟨w1, by omega⟩, q5 q (by omega) (by omega)⟩
  · show h1.next + 1 = h2.next
    omega
  · intro q w1 w2
    have w2 : q < h1.next := w2
    refine ⟨⟨w1, by omega⟩, ?_⟩
    by_cases hqb : q = s.heap.next
    · subst hqb
      rw [q4]
      simp [changed]
    · rw [q5 q hqb w2]
      simp [changed, hqb]

/-- A class or struct with a body. -/
theorem name_gives {r : Rec} {hx : Bytes} {hs inner : List Tok} {o z : Tok} (hH : RecordName e.mem k hx hs) (hr : ∀ nm, Reads e rest n (.body b!"parse_class_struct_body" (classMember r nm)) inner y)
    (ho : TokIs e.mem o .BraceCurly_Open 0 b!"{") (hz : z.type = .BraceCurly_Close) (hu : TokIs e.mem u .Statement_End 512 b!";") (hq : Quiet u (more ++ rest))
    (hn : n ≤ s.heap.next) (hn0 : 0 < s.heap.next) (hc : Consts e n s.heap) (h : Here e s (hs ++ o :: inner ++ z :: u :: more) rest) :
    Gives (classStruct r k.tok false) e s (hs.length + (inner.length + 3)) (hx ++ b!"\n{\n" ++ y ++ b!"\n};\n") := by
  have h' : Here e s (hs ++ o :: (inner ++ z :: u :: more)) rest := by simpa using h
  obtain ⟨nm, name, l, sq, h1, r1, r2, r3, r4, r5, r6, r7⟩ := head_run (r := r) (ip := false) hH (headEnds_of (fl := 0) (.inl ho)) hn0 h'
  have hh : Here e ⟨s.idx + hs.length, h1, s.scope⟩ (o :: inner ++ z :: u :: more) rest := (h'.advN.heap h1 s.scope).at rfl
  have hk1 : Agree 1 s.heap.next s.heap h1 := agree_kept (Nat.succ_pos _) (Nat.le_refl _) r5
  obtain ⟨h2, ps, ys, q1, q2, q3, q4, ⟨g, g1, g2, g3⟩, q5⟩ := afterSpecs_body (k := k) (sq := sq) r2 r7 (hr nm) ho hz hu hq (by show n ≤ h1.next; omega) (by show 0 < h1.next; omega)
    (hc.keep (hk1.mono (Nat.le_refl _) hn) r6) hh
  have q2 : h1.next + 2 ≤ h2.next := q2
  have q3 : Agree 1 h1.next h1 h2 := q3
  have q4 : h2.cell (h2.next - 1) = recordNode k name sq h1.next := q4
  have g2 : BodyHas k.bodyType h1.next g ps ys := g2
  have hg : g.next = h2.next - 1 := by omega
  have hst := g2.stands (by cases k <;> rfl)
  refine ⟨h2.next - 1, h2, by rw [r1, q1]; simp [Nat.add_assoc], hk1.trans (q3.mono (Nat.le_refl _) r6), by omega, by omega, ?_, ?_⟩
  · unfold Single
    rw [q4]
    unfold recordNode
    cases k <;> simp [isBodyType]
  · intro E par f q w1 w2 w3 w4
    rw [q5] at hst
    rw [r3]
    refine record_says (a := s.heap.next) (b := g.next) (h := g) (sq := sq) hn0 ((g3.mono (by omega) (Nat.le_refl _)).trans (hg ▸ w1)) w2
      (by rw [w3, q4]; rfl) w4 ?_ (hst.agree (fun q w1 w2 => ⟨⟨by omega, w2⟩, rfl⟩) (by omega) (Nat.le_refl _))
    refine r4.agree ?_ (Nat.le_refl _) (by have := g2.body.valid.2; omega)
    intro q w1 w2
    have e1 := q3 q (by omega) w2
    have hlt : q < g.next := by have := g2.body.valid.2; omega
    have e2 := g3 q (by omega) hlt
    exact ⟨⟨by omega, hlt⟩, by rw [← e2.2, e1.2]⟩

theorem defRecord_fwd {h : Heap} {name : Bytes} {c : Cfg} {fuel : Nat} (hn : 0 < h.next) (hne : name ≠ []) :
    defRecord k fuel c h name {} = .ok (h.next, grown h { type := k.fwdType, name := name }) := by
  cases k with
  | cls =>
    show defClass fuel c h name {} = _
    unfold defClass guardName guardOpt
    simp only [hne, if_false, if_true]
    rw [finish_eq hn, Res.ok_bind]
    simp only [Res.ok_bind, addInterfaces]
    rfl
  | struct =>
    show defStruct fuel c h name {} = _
    unfold defStruct guardOpt
    simp only [if_true]
    rw [finish_eq hn, Res.ok_bind]
    simp only [Res.ok_bind, addInterfaces]
    rfl

/-- A class or struct that is only declared. -/
theorem forward_gives {r : Rec} {name : Bytes} {f : Tok} {ns : List Tok} (hf : f.type = k.tok) (hN : QualToks e.mem name ns) (hu : TokIs e.mem u .Statement_End 512 b!";")
    (hq : Quiet u (more ++ rest)) (hn0 : 0 < s.heap.next) (h : Here e s (f :: ns ++ u :: more) rest) :
    Gives (classStruct r k.tok false) e s (ns.length + 2) (k.word ++ name ++ b!";\n") := by
  have hE := headEnds_of (fl := 0) (x := b!";") (.inr hu)
  obtain ⟨nm, r1, r2, r3⟩ := named_run (r := r) (ip := false) hf hN hE.name h
  have hh : Here e ⟨s.idx + (f :: ns).length, s.heap, s.scope⟩ (u :: more) rest := h.advN.at rfl
  obtain ⟨N, hN'⟩ : ∃ N : Node, N = { type := k.fwdType, name := name } := ⟨_, rfl⟩
  refine ⟨s.heap.next, grown s.heap N, ?_, agree_kept (Nat.succ_pos _) (Nat.le_refl _) (kept_grown _ _), Nat.le_refl _, rfl, ?_, ?_⟩
  · rw [r1]
    refine bind_eq (hh.check hE.name.fmt _) ?_
    simp only [hu.type, reduceCtorEq, decide_false, Bool.false_eq_true, if_false]
    unfold afterSpecs
    have hp : parents e ⟨s.idx + (f :: ns).length, s.heap, s.scope⟩ = .ok ((0, 0, []), ⟨s.idx + (f :: ns).length, s.heap, s.scope⟩) := by
      unfold parents
      refine bind_run (hh.check hE.name.fmt _) ?_
      simp only [hu.type, reduceCtorEq, decide_false, Bool.false_eq_true, if_false]
      rfl
    refine bind_run hp ?_
    refine bind_run (hh.check hE.name.fmt _) ?_
    simp only [hu.type, reduceCtorEq, decide_false, Bool.false_eq_true, if_false]
    refine bind_run (pureP _ _ _) ?_
    refine bind_run (endStmt_run hu hq hh) ?_
    refine bind_run (r2 _) ?_
    have hif : ∀ (F : Nat → P Nat), (if k.tok = .Decl_Class then (code fun c h => defClass (h.next + 1) c h name {}) >>= F
        else (code fun c h => defStruct (h.next + 1) c h name {}) >>= F) = ((code fun c h => defRecord k (h.next + 1) c h name {}) >>= F) := by
      intro F
      cases k <;> rfl
    rw [hif]
    refine bind_run (a := s.heap.next) (s' := ⟨s.idx + (ns.length + 2), grown s.heap N, s.scope⟩) ?_ ?_
    · show (defRecord k (s.heap.next + 1) e.cfg s.heap name _).bind _ = _
      rw [defRecord_fwd hn0 r3, hN']
      rfl
    · simp only [ne_eq, not_true_eq_false, if_false]
      rfl
  · unfold Single
    rw [hN']
    simp only [grown, if_true]
    cases k <;> simp [isBodyType, RecordKind.fwdType]
  · intro E par g q w1 w2 w3 w4
    refine forward_says w2 (par := par) (f := g) (q := q) ?_ w4 r3
    rw [w3, hN']
    simp [grown]

/-! ## Among members -/

theorem depth_append (o z : List TokType) (l : List Tok) : ∀ (k : List Tok) (n : Int), depth o z (k ++ l) n = depth o z l (depth o z k n)
  | [], _ => rfl
  | _ :: k, n => by
    rw [List.cons_append, depth, depth]
    exact depth_append o z l k _

theorem depth_shift (o z : List TokType) : ∀ (k : List Tok) (n m : Int), depth o z k (n + m) = depth o z k n + m
  | [], _, _ => rfl
  | t :: k, n, m => by
    unfold depth
    rw [← depth_shift o z k]
    congr 1
    split
    · omega
    · split <;> omega

local notation "braces" => depth [TokType.BraceCurly_Open] [TokType.BraceCurly_Close]

/-- No statement ends among these tokens, `n` braces being open. -/
def NoEnd (vs : List Tok) (n : Int) : Prop := ∀ pre t post, vs = pre ++ t :: post → braces (pre ++ [t]) n = 0 → t.type ≠ .Statement_End

theorem NoEnd.append {n : Int} (h1 : NoEnd vs n) (h2 : NoEnd ts (braces vs n)) : NoEnd (vs ++ ts) n := by
  intro pre t post hp hd
  rcases List.append_eq_append_iff.1 hp with ⟨as, g1, g2⟩ | ⟨bs, g1, g2⟩
  · refine h2 as t post g2 ?_
    rw [← depth_append, ← List.append_assoc, ← g1]
    exact hd
  · cases bs with
    | nil =>
      rw [List.append_nil] at g1
      subst g1
      refine h2 [] t post g2.symm ?_
      rw [← depth_append]
      exact hd
    | cons b bs =>
      obtain ⟨rfl, g3⟩ := List.cons.inj g2
      exact h1 pre t bs g1 hd

theorem noEnd_of {n : Int} (h : ∀ t ∈ vs, t.type ≠ .Statement_End) : NoEnd vs n := fun pre t post hp _ => h t (by rw [hp]; simp)

theorem Balanced.nonneg {vs : List Tok} (hb : Balanced vs) : ∀ (n : Nat) (pre post : List Tok), pre.length = n → vs = pre ++ post → 0 ≤ braces pre 0 := by
  intro n
  induction n with
  | zero =>
    intro pre post hl hv
    cases pre with
    | nil => exact Int.le_refl _
    | cons => cases hl
  | succ n ih =>
    intro pre post hl hv
    rcases List.eq_nil_or_concat pre with rfl | ⟨p, t, rfl⟩
    · cases hl
    · rw [List.concat_eq_append] at *
      show 0 ≤ depth _ _ (p ++ [t]) 0
      rw [depth_append]
      have h1 := ih p (t :: post) (by simpa using hl) (by simpa using hv)
      have h2 := hb.1 p t post (by simpa using hv)
      show 0 ≤ depth _ _ [t] _
      simp only [depth, List.mem_singleton]
      split
      · omega
      · split
        · next hh => have := h2 hh; omega
        · exact h1

/-- The search for the end of a statement goes on. -/
theorem statementEnd_scan {cells : List Tok} {num : Nat} : ∀ (vs : List Tok) (fuel i : Nat) (l : Int) (tail : List Tok), cells.drop i = vs ++ tail → i + vs.length ≤ num →
    NoEnd vs l →
    statementEnd cells num (fuel + vs.length) i l = statementEnd cells num fuel (i + vs.length) (braces vs l)
  | [], _, _, _, _, _, _, _ => rfl
  | t :: vs, fuel, i, l, tail, hc, hn, hv => by
    simp only [List.length_cons] at hn
    rw [List.length_cons, ← Nat.add_assoc, statementEnd, if_pos (by omega)]
    have hc0 : cells[i]? = some t := by
      rw [← Nat.add_zero i, ← List.getElem?_drop, hc]
      rfl
    rw [hc0]
    simp only [Res.ofOption, Res.ok_bind]
    have hl : (if t.type = .BraceCurly_Open then l + 1 else if t.type = .BraceCurly_Close then l - 1 else l) = braces [t] l := by
      simp [depth]
    rw [hl, if_neg (fun hh => hv [] t vs rfl hh.1 hh.2)]
    rw [statementEnd_scan vs fuel (i + 1) (braces [t] l) tail (by rw [← List.drop_drop, hc]; rfl) (by omega)]
    · rw [Nat.add_assoc i, Nat.add_comm 1]
      rfl
    · intro pre u post hp hd
      refine hv (t :: pre) u post (by rw [hp]; rfl) ?_
      exact hd

theorem endAhead_run (hu : u.type = .Statement_End) (hv : NoEnd vs 0) (hd : braces vs 0 = 0)
    (h : Here e s (vs ++ u :: more) rest) : endAhead e s = .ok (s.idx + vs.length, s) := by
  unfold endAhead
  refine bind_run (envP _ _) ?_
  refine bind_run (getP _ _) ?_
  have hl := h.length_le
  have hnum := h.num
  simp only [List.length_append, List.length_cons] at hl hnum
  have := statementEnd_scan (cells := e.cells) (num := e.num) vs (e.cells.length + 1 - vs.length) s.idx 0 (u :: more ++ rest) (by rw [h.cells]; simp) (by omega) hv
  rw [show e.cells.length + 1 - vs.length + vs.length = e.cells.length + 1 by omega] at this
  show (statementEnd _ _ _ _ _).bind _ = _
  rw [this, hd]
  obtain ⟨fuel, hf⟩ : ∃ fuel, e.cells.length + 1 - vs.length = fuel + 1 := ⟨e.cells.length - vs.length, by omega⟩
  rw [hf, statementEnd, if_pos (by omega)]
  have hc : e.cells[s.idx + vs.length]? = some u := by
    rw [h.nth]
    simp
  rw [hc]
  simp [Res.ofOption, Res.ok_bind, hu]

/-- Such tokens do not matter for the braces. -/
theorem braces_none : ∀ (vs : List Tok) (n : Int), (∀ t ∈ vs, t.type ∉ [TokType.BraceCurly_Open, .BraceCurly_Close]) → braces vs n = n
  | [], _, _ => rfl
  | t :: vs, n, h => by
    have h1 := h t List.mem_cons_self
    simp only [List.mem_cons, List.not_mem_nil, or_false, not_or] at h1
    show depth _ _ vs _ = n
    simp only [List.mem_singleton, h1.1, h1.2, if_false]
    exact braces_none vs n fun u hu => h u (List.mem_cons_of_mem _ hu)

theorem QualToks.types {c : Bytes} (h : QualToks c x ts) : ∀ t ∈ ts, t.type = .Identifier ∨ t.type = .Access_StaticSymbol := by
  obtain ⟨h1, h2, -, -⟩ := h
  intro t ht
  rcases List.mem_cons.1 ht with rfl | ht
  · exact .inl h1.1.type
  · obtain ⟨p, hp1, hp2⟩ := List.mem_flatMap.1 ht
    simp only [partToks, List.mem_cons, List.not_mem_nil, or_false] at hp2
    obtain ⟨g1, y, g2⟩ := h2 p hp1
    rcases hp2 with rfl | rfl
    · exact .inr g1
    · exact .inl g2.1.type

theorem RecordName.types {c : Bytes} (h : RecordName c k x ts) : ∀ t ∈ ts, t.type ∉ [TokType.BraceCurly_Open, .BraceCurly_Close, .Statement_End] := by
  have key : ∀ {t : Tok} {k : RecordKind}, t.type = k.tok → t.type ∉ [TokType.BraceCurly_Open, .BraceCurly_Close, .Statement_End] := by
    intro t k h
    rw [h]
    cases k <;> decide
  have key2 : ∀ {t : Tok}, t.type = .Identifier ∨ t.type = .Access_StaticSymbol → t.type ∉ [TokType.BraceCurly_Open, .BraceCurly_Close, .Statement_End] := by
    intro t h
    rcases h with h | h <;> rw [h] <;> decide
  intro t ht
  cases h with
  | unnamed h => simp at ht; subst ht; exact key (k := .struct) h
  | named h1 h2 =>
    rcases List.mem_cons.1 ht with rfl | ht
    · exact key h1
    · exact key2 (h2.types t ht)
  | final h1 h2 h3 =>
    rw [List.cons_append] at ht
    rcases List.mem_cons.1 ht with rfl | ht
    · exact key h1
    · rcases List.mem_append.1 ht with ht | ht
      · exact key2 (h2.types t ht)
      · simp at ht; subst ht; rw [h3.type]; decide

/-- The scope a class or struct is parsed in. -/
def RecordKind.proc : RecordKind → Bytes
  | .cls => b!"parser_parse_class"
  | .struct => b!"parser_parse_struct"

theorem forwardOrDef_record (r : Rec) : forwardOrDef r k.tok false = inScope k.proc (classStruct r k.tok false) := by
  cases k <;> rfl

/-- Into another scope, and out of it. -/
theorem Gives.scope {f : P Nat} {proc : Bytes} {m : Nat} (h : Gives f e ⟨s.idx, s.heap, proc :: s.scope⟩ m x) : Gives (inScope proc f) e s m x := by
  obtain ⟨p, h', r1, r2⟩ := h
  exact ⟨p, h', inScope_run (sc := proc :: s.scope) r1 rfl, r2⟩

/-- Where the search for the end of the statement leads. -/
theorem complicated_braces {r : Rec} {which : TokType} {hs inner : List Tok} {o z : Tok} {m : Nat} (hhs : 1 ≤ hs.length)
    (hH : ∀ t ∈ hs, t.type ∉ [TokType.BraceCurly_Open, .BraceCurly_Close, .Statement_End])
    (ho : TokIs e.mem o .BraceCurly_Open 0 b!"{") (hb : Balanced inner) (hz : TokIs e.mem z .BraceCurly_Close 512 b!"}") (hu : TokIs e.mem u .Statement_End 512 b!";")
    (h : Here e s (hs ++ o :: inner ++ z :: u :: more) rest) (hg : ∀ sc, Gives (forwardOrDef r which false) e ⟨s.idx, s.heap, sc⟩ m x) :
    Gives (complicatedWith r which) e s m x := by
  have hbal : braces inner 1 = 1 := by
    have := depth_shift [.BraceCurly_Open] [.BraceCurly_Close] inner 0 1
    rw [hb.2] at this
    simpa using this
  have hd0 : ∀ (l : List Tok) (n : Int), braces (hs ++ l) n = braces l n := by
    intro l n
    show depth _ _ (hs ++ l) n = _
    rw [depth_append]
    rw [show depth [.BraceCurly_Open] [.BraceCurly_Close] hs n = n from braces_none hs n fun t ht => by have := hH t ht; simp at this ⊢; exact ⟨this.1, this.2.1⟩]
  have h' : Here e ⟨s.idx, s.heap, b!"parse_complicated_definition" :: s.scope⟩ ((hs ++ o :: inner ++ [z]) ++ u :: more) rest := by
    have := h.heap s.heap (b!"parse_complicated_definition" :: s.scope)
    simpa using this
  obtain ⟨p, g, r1, r2⟩ := hg (b!"parse_complicated_definition" :: s.scope)
  have hend := endAhead_run hu.type (vs := hs ++ o :: inner ++ [z]) ?_ ?_ h'
  · refine ⟨p, g, inScope_run (sc := b!"parse_complicated_definition" :: s.scope) ?_ rfl, r2⟩
    refine bind_run hend ?_
    refine bind_run (getP _ _) ?_
    have hlen : (hs ++ o :: inner ++ [z]).length = hs.length + inner.length + 2 := by simp; omega
    rw [hlen]
    rw [iteP, if_neg (by simp only []; omega)]
    have hbef : tokBefore (s.idx + (hs.length + inner.length + 2)) 1 e ⟨s.idx, s.heap, b!"parse_complicated_definition" :: s.scope⟩ = .ok (z, ⟨s.idx, s.heap, b!"parse_complicated_definition" :: s.scope⟩) := by
      unfold tokBefore
      rw [if_neg (by omega), show s.idx + (hs.length + inner.length + 2) - 1 = s.idx + (hs.length + (inner.length + 1)) by omega]
      refine Here.tokAt h' ?_
      simp
    refine bind_run hbef ?_
    have htr : trailing z e ⟨s.idx, s.heap, b!"parse_complicated_definition" :: s.scope⟩ = .ok (false, ⟨s.idx, s.heap, b!"parse_complicated_definition" :: s.scope⟩) := by
      unfold trailing
      rw [hz.has]
      rfl
    refine bind_run htr ?_
    simp only [Bool.false_eq_true, if_false, hz.type, reduceCtorEq, if_true]
    rw [show nativeType .BraceCurly_Close = false from rfl]
    simp only [Bool.false_eq_true, if_false]
    exact r1
  · have e1 : hs ++ o :: inner ++ [z] = (hs ++ [o]) ++ (inner ++ [z]) := by simp
    have e2 : braces (hs ++ [o]) 0 = 1 := by
      rw [hd0]
      simp [depth, ho.type]
    rw [e1]
    refine (noEnd_of fun t ht => ?_).append ?_
    · rcases List.mem_append.1 ht with ht | ht
      · have := hH t ht
        simp at this
        exact this.2.2
      · simp at ht
        subst ht
        rw [ho.type]
        decide
    · rw [e2]
      refine NoEnd.append (fun pre t post hp hd => ?_) (noEnd_of fun t ht => ?_)
      · have g1 := hb.nonneg _ (pre ++ [t]) post rfl (by simpa using hp)
        have g2 := depth_shift [.BraceCurly_Open] [.BraceCurly_Close] (pre ++ [t]) 0 1
        rw [Int.zero_add, hd] at g2
        omega
      · simp at ht
        subst ht
        rw [hz.type]
        decide
  · rw [List.append_assoc, hd0, List.cons_append, depth, depth_append]
    simp only [ho.type, List.mem_singleton, if_true, Int.zero_add]
    rw [hbal]
    simp [depth, hz.type]

theorem complicated_short {r : Rec} {which : TokType} {f i : Tok} {m : Nat} (hf : f.type ∉ [TokType.BraceCurly_Open, .BraceCurly_Close] ∧ f.type ≠ .Statement_End) (hi : i.type = .Identifier) (hu : u.type = .Statement_End)
    (h : Here e s (f :: i :: u :: more) rest) (hg : ∀ sc, Gives (forwardOrDef r which false) e ⟨s.idx, s.heap, sc⟩ m x) :
    Gives (complicatedWith r which) e s m x := by
  have h' : Here e ⟨s.idx, s.heap, b!"parse_complicated_definition" :: s.scope⟩ ([f, i] ++ u :: more) rest := h.heap s.heap (b!"parse_complicated_definition" :: s.scope)
  have hi1 : i.type ∉ [TokType.BraceCurly_Open, .BraceCurly_Close] ∧ i.type ≠ .Statement_End := by
    rw [hi]
    decide
  have hend := endAhead_run hu (vs := [f, i]) (noEnd_of fun t ht => by
    simp only [List.mem_cons, List.not_mem_nil, or_false] at ht
    rcases ht with rfl | rfl
    · exact hf.2
    · exact hi1.2) (braces_none _ _ fun t ht => by
    simp only [List.mem_cons, List.not_mem_nil, or_false] at ht
    rcases ht with rfl | rfl
    · exact hf.1
    · exact hi1.1) h'
  obtain ⟨p, g, r1, r2⟩ := hg (b!"parse_complicated_definition" :: s.scope)
  refine ⟨p, g, inScope_run (sc := b!"parse_complicated_definition" :: s.scope) ?_ rfl, r2⟩
  refine bind_run hend ?_
  refine bind_run (getP _ _) ?_
  rw [iteP, if_pos (by rfl)]
  exact r1

theorem complicated_forward {r : Rec} {f i : Tok} {m : Nat} (hf : f.type = k.tok) (hi : i.type = .Identifier) (hu : u.type = .Statement_End)
    (h : Here e s (f :: i :: u :: more) rest) (hg : ∀ sc, Gives (classStruct r k.tok false) e ⟨s.idx, s.heap, sc⟩ m x) :
    Gives (complicatedWith r k.tok) e s m x :=
  complicated_short (by rw [hf]; cases k <;> decide) hi hu h fun sc => by
    rw [forwardOrDef_record]
    exact Gives.scope (hg _)

theorem quiet_of (h : NoComment u ts) (hz : Behind (more ++ rest)) : Quiet u (ts ++ more ++ rest) := by
  cases ts with
  | nil =>
    obtain ⟨hl, hz⟩ := hz
    rw [List.nil_append]
    cases hc : more ++ rest with
    | nil => rw [hc] at hl; simp at hl
    | cons t l => exact ⟨t, rfl, fun hh => (hz t (by rw [hc]; rfl)).1 hh.1⟩
  | cons t ts => exact ⟨t, rfl, h t rfl⟩

theorem label_run {f : Env → Nat} (h : Here e s (t :: u :: ts) rest) (hu : u.type = .Assign_Classifer) :
    accessLabel t.type f e s = .ok (f e, ⟨s.idx + 2, s.heap, s.scope⟩) := by
  unfold accessLabel
  refine bind_run (constant_run h) ?_
  have := h.tail.eat
  rw [hu] at this
  exact bind_run this rfl

end Verif.Parse
