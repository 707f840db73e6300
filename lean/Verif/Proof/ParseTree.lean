import Verif.Proof.ParseBodies
/-!
# The functions that call one another
-/
namespace Verif.Parse
open Verif.Lex (Tok)
open Verif.Ast

namespace Safe
variable {c : Ctx} {α β σ : Type} {k : Nat} {g h : Heap}

theorem codeType {b : Bytes} : Safe c k g h (P.code fun c h => defType c h b {})
    (fun p h' => c.Is [.Typename] p h' ∧ (h'.cell p).back = 0 ∧ h.next ≤ p) Never :=
  code fun _ ho hg => (defType_makes ho).imp fun _ _ _ i => ⟨i.1, i.2.1, Nat.le_trans hg.next i.2.2⟩

theorem bases_one {p : Nat} {h' : Heap} (i : c.Is [.Typename] p h' ∧ (h'.cell p).back = 0 ∧ h.next ≤ p) : c.Bases h h' p [] where
  none _ := rfl
  all _ q hq := by
    have : q = p := by simpa using hq
    subst this
    exact ⟨i.1, i.2.2, i.2.1⟩
  sorted := by simp

theorem bases_snoc {parent : Nat} {is : List Nat} {p : Nat} {h1 h2 : Heap} (b : c.Bases h h1 parent is) (hp : parent ≠ 0) (hg : Grow h1 h2)
    (i : c.Is [.Typename] p h2 ∧ (h2.cell p).back = 0 ∧ h1.next ≤ p) (hh : h.next ≤ h1.next) : c.Bases h h2 parent (is ++ [p]) where
  none h := (hp h).elim
  all _ q hq := by
    rw [← List.cons_append, List.mem_append] at hq
    rcases hq with hq | hq
    · exact (b.grow hg).all hp q hq
    · have : q = p := by simpa using hq
      subst this
      exact ⟨i.1, Nat.le_trans hh i.2.2, i.2.1⟩
  sorted := by
    rw [← List.cons_append, List.pairwise_append]
    refine ⟨b.sorted, by simp, fun x hx y hy => ?_⟩
    have : y = p := by simpa using hy
    subst this
    exact Nat.lt_of_lt_of_le (b.all hp x hx).1.2.1 i.2.2

theorem parents : Safe c k g h parents (fun r h' => c.Bases h h' r.1 r.2.2) Never := by
  unfold Parse.parents
  have tail : ∀ {k : Nat} {n : Nat}, Safe c k g h (do
      let name ← Parse.bytes (← Parse.identText)
      let parent ← P.code fun c h => defType c h name {}
      let is ← P.loop (fun (is : List Nat) => do
        if ← Parse.check .Comma then
          Parse.eat .Comma
          if has (← Parse.cur) Lex.fAccessSpecifier then Parse.eatAny
          let name ← Parse.bytes (← Parse.identText)
          let i ← P.code fun c h => defType c h name {}
          if is.length ≥ 4 then P.ub else return (true, is ++ [i])
        else return (false, is)) []
      return (parent, n, is)) (fun r h' => c.Bases h h' r.1 r.2.2) Never := by
    intro k n
    refine bindN0 identText fun _ => bindN0 bytes fun _ => ?_
    refine bindN codeType fun p h1 hg1 hp => ?_
    have hp0 : p ≠ 0 := hp.1.ne
    refine bindN (loopH (I := fun is h' => c.Bases h h' p is) (fun _ _ _ hg i => i.grow hg) (bases_one hp) fun is h2 hg2 hb => ?_) fun is h2 hg2 hb => ?_
    · have last : ∀ {k : Nat}, Safe c k h2 h2 (do
          let name ← Parse.bytes (← Parse.identText)
          let i ← P.code fun c h => defType c h name {}
          if is.length ≥ 4 then P.ub else return (true, is ++ [i])) (fun r h' => c.Bases h h' p r.2) Never := by
        intro k
        refine bindN0 identText fun _ => bindN0 bytes fun _ => ?_
        refine bindN codeType fun i h3 hg3 hi => ?_
        refine ite (fun _ => ub) fun _ => ?_
        exact pureH (fun h' hg' => (bases_snoc hb hp0 hg3 hi (Nat.le_trans hg1.next hg2.next)).grow hg') (fun h => h)
      refine bindN0 check fun _ => ite (fun _ => ?_) fun _ => ?_
      · refine bindS0 eat fun _ => bindN0 cur fun _ => ite (fun _ => ?_) fun _ => ?_
        · exact bindN0 eatAny.never fun _ => last
        · exact last
      · exact pureH (fun h' hg' => hb.grow hg') (fun h => nomatch h)
    · exact pureH (fun h' hg' => hb.grow hg') (fun h => h)
  refine bindN0 check fun _ => ite (fun _ => ?_) fun _ => ?_
  · refine bindS0 eat fun _ => bindN0 cur fun _ => ite (fun _ => ?_) fun _ => ?_
    · exact bindN0 eatAny.never fun _ => tail
    · exact tail
  · exact pureH (fun _ _ => ⟨fun _ => rfl, fun h => (h rfl).elim, by simp⟩) (fun h => h)

theorem withGrow {p : P α} {V : α → Heap → Prop} {S : α → Prop} (hp : Grow g h → Safe c k g h p V S) : Safe c k g h p V S :=
  fun hg => hp hg hg

theorem bases_weaken {g h h' : Heap} {p : Nat} {is : List Nat} (b : c.Bases h h' p is) (hg : Grow g h) : c.Bases g h' p is :=
  ⟨b.none, fun hp q hq => ⟨(b.all hp q hq).1, Nat.le_trans hg.next (b.all hp q hq).2.1, (b.all hp q hq).2.2⟩, b.sorted⟩

theorem codeClass {b : Bytes} {p : OptsStruct} (hb : c.Bases g h p.parent p.interfaces) (h1 : c.Fr p.body) (h2 : c.Ref p.attributes)
    (h3 : c.Ref p.specifiers) : Safe c k g h (P.code fun c h => defClass (h.next + 1) c h b p) (c.Is [.Class, .Class_Fwd]) Never := by
  intro hg s ho hk hh
  have := defClass_makes (name := b) ho.heap (hg.trans hh) (hb.grow hh) h1 h2 h3
  show c.After g s _ Never ((defClass (s.heap.next + 1) c.e.cfg s.heap b p).bind fun r => .ok (r.1, { s with heap := r.2 }))
  revert this
  cases defClass (s.heap.next + 1) c.e.cfg s.heap b p with
  | ok r => rintro ⟨h1, h2, h3⟩; exact ⟨⟨h1, ho.idx⟩, h3, rfl, Nat.le_refl _, False.elim, h2⟩
  | _ => exact id

theorem codeStruct {b : Bytes} {p : OptsStruct} (hb : c.Bases g h p.parent p.interfaces) (h1 : c.Ref p.body) (h2 : c.Ref p.attributes)
    (h3 : c.Ref p.specifiers) : Safe c k g h (P.code fun c h => defStruct (h.next + 1) c h b p) (c.Is [.Struct, .Struct_Fwd]) Never := by
  intro hg s ho hk hh
  have := defStruct_makes (name := b) ho.heap (hg.trans hh) (hb.grow hh) h1 h2 h3
  show c.After g s _ Never ((defStruct (s.heap.next + 1) c.e.cfg s.heap b p).bind fun r => .ok (r.1, { s with heap := r.2 }))
  revert this
  cases defStruct (s.heap.next + 1) c.e.cfg s.heap b p with
  | ok r => rintro ⟨h1, h2, h3⟩; exact ⟨⟨h1, ho.idx⟩, h3, rfl, Nat.le_refl _, False.elim, h2⟩
  | _ => exact id

/-- What a class or struct becomes. -/
abbrev _root_.Verif.Parse.classTypes (which : TokType) : List CodeType :=
  if which = .Decl_Class then [.Class, .Class_Fwd] else [.Struct, .Struct_Fwd]

theorem class_end {b : Bytes} {p : OptsStruct} {cmt : Nat} {which : TokType} (hw : which = .Decl_Class) (h4 : c.Ref cmt)
    (hb : c.Bases g h p.parent p.interfaces) (h1 : c.Fr p.body) (h2 : c.Ref p.attributes) (h3 : c.Ref p.specifiers) : Safe c k g h (do
      let x ← P.code fun c h => defClass (h.next + 1) c h b p
      if cmt ≠ 0 then P.change fun h => h.upd x fun n => { n with inlineCmt := cmt }
      return x) (c.Is (classTypes which)) Never := by
  refine bindG (codeClass hb h1 h2 h3) fun a h' hg i => ?_
  unfold classTypes
  rw [if_pos hw]
  safe

theorem struct_end {b : Bytes} {p : OptsStruct} {cmt : Nat} {which : TokType} (hw : which ≠ .Decl_Class) (h4 : c.Ref cmt)
    (hb : c.Bases g h p.parent p.interfaces) (h1 : c.Fr p.body) (h2 : c.Ref p.attributes) (h3 : c.Ref p.specifiers) : Safe c k g h (do
      let x ← P.code fun c h => defStruct (h.next + 1) c h b p
      if cmt ≠ 0 then P.change fun h => h.upd x fun n => { n with inlineCmt := cmt }
      return x) (c.Is (classTypes which)) Never := by
  refine bindG (codeStruct hb h1.ref h2 h3) fun a h' hg i => ?_
  unfold classTypes
  rw [if_neg hw]
  safe

set_option maxHeartbeats 2000000 in
theorem classStruct {r : Rec} {which : TokType} {b : Bool} (hr : c.RecGood (k + 1) r) :
    Safe c k g h (classStruct r which b) (c.Is (classTypes which)) Any := by
  unfold Parse.classStruct
  refine withGrow fun hg0 => ?_
  safe
  all_goals first
    | exact class_end (by assumption) (by sref) (bases_weaken ((by assumption : c.Bases _ _ _ _).grow (by grow)) (by grow)) (by sfr) (by sref) (by sref)
    | exact struct_end (by assumption) (by sref) (bases_weaken ((by assumption : c.Bases _ _ _ _).grow (by grow)) (by grow)) (by sfr) (by sref) (by sref)

theorem parseClass {r : Rec} {b : Bool} (hr : c.RecGood (k + 1) r) : Safe c k g h (parseClass r b) (c.Is [.Class, .Class_Fwd]) Any :=
  inScope (classStruct hr)

theorem parseStruct {r : Rec} {b : Bool} (hr : c.RecGood (k + 1) r) : Safe c k g h (parseStruct r b) (c.Is [.Struct, .Struct_Fwd]) Any :=
  inScope (classStruct hr)

theorem unionMember {r : Rec} {ty : TokType} (hr : c.RecGood k r) : Safe c k g h (unionMember r ty) c.Mem Any := by
  unfold Parse.unionMember
  split
  · exact constant fmtNewline
  all_goals repeat' first | sstep | exact directive ‹_›

theorem unionBody {r : Rec} (hr : c.RecGood (k + 1) r) : Safe c k g h (unionBody r) (c.Is [.Union_Body]) Any := by
  unfold Parse.unionBody
  safe

theorem parseUnion {r : Rec} {b : Bool} (hr : c.RecGood (k + 1) r) : Safe c k g h (parseUnion r b) (c.Is [.Union, .Union_Fwd]) Any := by
  unfold Parse.parseUnion
  safe

theorem forwardOrDef {r : Rec} {w : TokType} {b : Bool} (hr : c.RecGood (k + 1) r) : Safe c k g h (forwardOrDef r w b) (c.Is defTypes) Any := by
  unfold Parse.forwardOrDef
  safe

theorem endAhead : Safe c k g h endAhead Top Never := by
  unfold Parse.endAhead
  refine bindEnv (bindN get fun s _ _ _ => res (statementEnd_ne_hang (by omega)))

theorem tokBefore {i j : Nat} : Safe c k g h (tokBefore i j) Top Never := by
  unfold Parse.tokBefore
  safe

theorem trailing {t : Tok} : Safe c k g h (trailing t) Top Never := by
  unfold Parse.trailing
  safe

theorem beforeTrailing : ∀ {i : Nat}, Safe c k g h (beforeTrailing i) Top Never
  | 0 => by
    unfold Parse.beforeTrailing
    safe
  | i + 1 => by
    have := @beforeTrailing i
    unfold Parse.beforeTrailing
    refine bindN0 tokAt fun _ => bindN0 trailing fun _ => ite (fun _ => this) fun _ => by safe

theorem enumAhead {w : TokType} {i : Nat} : Safe c k g h (enumAhead w i) Top Never := by
  unfold Parse.enumAhead
  safe

theorem notEnumAhead {w : TokType} {i : Nat} : Safe c k g h (notEnumAhead w i) Top Never := by
  unfold Parse.notEnumAhead
  safe

theorem inplaceVar {r : Rec} {w : TokType} (hr : c.RecGood (k + 1) r) : Safe c k g h (inplaceVar r w) (c.Is [.Variable]) Any := by
  unfold Parse.inplaceVar
  safe

theorem complicatedIdent {r : Rec} {w : TokType} {i : Nat} (hr : c.RecGood (k + 1) r) : Safe c k g h (complicatedIdent r w i) (c.Is compTypes) Any := by
  unfold Parse.complicatedIdent
  safe

theorem complicatedWith {r : Rec} {w : TokType} (hr : c.RecGood (k + 1) r) : Safe c k g h (complicatedWith r w) (c.Is compTypes) Any := by
  unfold Parse.complicatedWith
  safe

theorem resParen {i : Nat} {t : Tok} : Safe c k g h (P.res (parenAhead c.e.mem c.e.cells c.e.num (c.e.num + 1) i t)) Top Never :=
  res (parenAhead_ne_hang (by omega))
theorem resIdent {i st : Nat} : Safe c k g h (P.res (identBefore c.e.mem c.e.cells st i 0 0)) Top Never := res identBefore_ne_hang
macro_rules | `(tactic| sother) => `(tactic| with_reducible first | exact Safe.resParen | exact Safe.resIdent)

theorem ctorDtor {s : Nat} (hs : c.Opt [.Specifiers] s h) :
    Safe c k g h (ctorDtor s) (c.Opt [.Constructor, .Constructor_Fwd, .Destructor, .Destructor_Fwd]) (fun r => r ≠ 0) := by
  unfold Parse.ctorDtor
  safe

theorem nspaceDecl {b : Bool} {a s : Nat} (ha : c.Opt [.PlatformAttributes] a h) (hs : c.Opt [.Specifiers] s h) :
    Safe c k g h (nspaceDecl b a s) (c.Is declTypes) Any := by
  unfold Parse.nspaceDecl
  refine bindC (ctorDtor hs) (fun m h' hg hm h0 => ?_) fun m h' hg hm h0 => ?_
  · have hm := hm.resolve_left h0
    rw [if_pos h0]
    safe
  · rw [if_neg h0]
    safe

theorem nspaceSpecified {a : Nat} (ha : c.Opt [.PlatformAttributes] a h) : Safe c k g h (nspaceSpecified a) (c.Is declTypes) Any := by
  unfold Parse.nspaceSpecified
  safe

theorem recNspace {r : Rec} {w : CodeType} (hr : c.RecGood k r) (hw : w ∈ nspaceTypes) : Safe c k g h (r.nspace w) (c.Is [w]) Any :=
  (hr.nspace w hw).safe (Nat.le_refl _)
macro_rules | `(tactic| sother) => `(tactic| with_reducible exact Safe.recNspace (Ctx.RecGood.up (by assumption) (by omega)) (by dec))

theorem externLink {r : Rec} (hr : c.RecGood (k + 1) r) : Safe c k g h (externLink r) (c.Is [.Extern_Linkage]) Any := by
  unfold Parse.externLink
  safe
  refine bindN (Safe.never (inScope (recNspace (hr.up (by omega)) (by decide)))) fun _ _ _ _ => ?_
  safe

theorem parseNamespace {r : Rec} (hr : c.RecGood (k + 1) r) : Safe c k g h (parseNamespace r) (c.Is [.Namespace]) Any := by
  unfold Parse.parseNamespace
  safe

theorem nspaceMember_at {r : Rec} {w : CodeType} {s : St} {t : Tok} (hr : c.RecGood s.idx r) (ha : c.e.cells[s.idx]? = some t)
    (ho : c.Ok s) : c.After s.heap s c.Mem Any (Parse.nspaceMember r w t.type c.e s) := by
  have go : ∀ {p : P Nat}, Safe c s.idx s.heap s.heap p c.Mem Any → c.After s.heap s c.Mem Any (p c.e s) :=
    fun hp => hp (Grow.refl _) s ho (Nat.le_refl _) (Grow.refl _)
  by_cases hx : t.type = .Module_Export
  · rw [hx]
    show c.After s.heap s c.Mem Any ((if w = .Export_Body then P.fail else Parse.exportBody r) c.e s)
    split
    · trivial
    · have h1 := (show Safe c s.idx s.heap s.heap (Parse.exportBody r) (c.Is [.Export_Body]) Any from inScope (recNspace hr (by decide)))
        (Grow.refl _) s ho (Nat.le_refl _) (Grow.refl _)
      have h2 : ∀ x, Parse.exportBody r c.e s ≠ .ok x := by
        intro x hx'
        change ((r.nspace .Export_Body c.e { s with scope := b!"parser_parse_export_body" :: s.scope }).bind fun r =>
          .ok (r.1, { r.2 with scope := r.2.scope.tail })) = .ok x at hx'
        obtain ⟨y, hy, -⟩ := Res.bind_eq_ok.mp hx'
        exact hr.brace .Export_Body { s with scope := b!"parser_parse_export_body" :: s.scope } t y (by decide) ha (by rw [hx]; decide) hy
      revert h1 h2
      cases Parse.exportBody r c.e s with
      | ok x => exact fun _ h2 => (h2 x rfl).elim
      | _ => exact fun h1 _ => h1
  · revert hx
    suffices key : ∀ ty, ty ≠ .Module_Export → Safe c s.idx s.heap s.heap (Parse.nspaceMember r w ty) c.Mem Any from fun hx => go (key _ hx)
    intro ty hx
    unfold Parse.nspaceMember
    split
    · exact constant fmtNewline
    all_goals try (exact (hx rfl).elim)
    all_goals repeat' first | sstep | exact directive ‹_›

theorem nspaceMembers {r : Rec} {w : CodeType} {b : Nat} {ts : List CodeType} (hr : c.RecGood k r) (hb : c.Is ts b h) (hs : ∀ t ∈ ts, t ≠ .Typename) :
    Safe c k g h (Parse.members do
      Parse.hash
      let t ← Parse.curN
      if t.type = .Statement_End then Parse.eat .Statement_End
      else Parse.bodyAdd b (← Parse.nspaceMember r w t.type)) Top Never := by
  refine membersAt fun s t hk ho hg ha hn ht => ?_
  have hr := hr.up hk
  have hb := (hb.grow hg).solid hs
  by_cases hh : t.type = .Preprocess_Hash
  · refine after_bindS (Grow.refl _) ?_ fun _ => ?_
    · unfold Parse.hash
      refine after_bind (curN_at ha) ?_
      rw [if_pos hh]
      exact eat (Grow.refl _) s ho (Nat.le_refl _) (Grow.refl _)
    · intro hg' s' ho' hk' hh'
      cases ha' : c.e.cells[s'.idx]? with
      | none =>
        show c.After _ s' _ _ (((Res.ofOption _).bind _).bind _)
        rw [ha']
        trivial
      | some t' =>
        refine after_bind (curN_at ha') ?_
        split
        · exact (eat.never : Safe c s'.idx _ _ _ _ _) hg' s' ho' (Nat.le_refl _) hh'
        · exact after_bindV hh' (nspaceMember_at (hr.up (by omega)) ha' ho') fun _ _ _ _ => by
            have hb := hb.grow (hh'.trans ‹_›)
            safe
  · refine after_bind (a := ()) ?_ ?_
    · unfold Parse.hash
      show (Parse.curN c.e s).bind _ = _
      rw [curN_at ha, Res.ok_bind]
      dsimp only
      rw [if_neg hh]
      rfl
    · refine after_bind (curN_at ha) ?_
      split
      · exact eat (Grow.refl _) s ho (Nat.le_refl _) (Grow.refl _)
      · exact after_bindV (Grow.refl _) (nspaceMember_at hr ha ho) fun _ _ _ _ => by safe

theorem nspaceBody {r : Rec} {w : CodeType} (hr : c.RecGood (k + 1) r) (hw : w ≠ .Global_Body) (ht : w ≠ .Typename) :
    Safe c k g h (nspaceWith r w) (c.Is [w]) Any := by
  unfold Parse.nspaceWith
  rw [if_pos hw]
  sstep
  sstep
  refine bindN (Safe.never (make (by srefs))) fun b h1 hg1 hb => ?_
  have hb : c.Is [w] b h1 := hb.is (by simp)
  refine bindN0 (nspaceMembers (hr.up (by omega)) hb (by simpa using ht)) fun _ => ?_
  rw [if_pos hw]
  safe

theorem globalBody {r : Rec} (hr : c.RecGood k r) : Safe c k g h (nspaceWith r .Global_Body) (c.Is [.Global_Body]) Never := by
  unfold Parse.nspaceWith
  rw [if_neg (fun h => h rfl)]
  sstep
  refine bindN (Safe.never (make (by srefs))) fun b h1 hg1 hb => ?_
  have hb : c.Is [.Global_Body] b h1 := hb.is (by simp)
  refine bindN0 (nspaceMembers hr hb (by decide)) fun _ => ?_
  rw [if_neg (fun h => h rfl)]
  safe

theorem templateOther : Safe c k g h templateOther (c.Is declTypes) Any := by
  unfold Parse.templateOther
  safe

theorem templateBody {r : Rec} (hr : c.RecGood (k + 1) r) : Safe c k g h (templateBody r) (Of c.Fr) Never := by
  unfold Parse.templateBody
  safe

theorem templateWith {r : Rec} (hr : c.RecGood (k + 1) r) : Safe c k g h (templateWith r) (c.Is [.Template]) Any := by
  unfold Parse.templateWith
  safe

theorem typedefComplicated {r : Rec} {w : TokType} (hr : c.RecGood (k + 1) r) :
    Safe c k g h (typedefComplicated r w) (c.Is (.Typename :: defTypes)) Never := by
  unfold Parse.typedefComplicated
  safe

theorem typedefMacro : Safe c k g h typedefMacro (fun r h' => c.Is [.Untyped] r.1 h' ∨ r.1 = c.e.tEmpty) Any := by
  unfold Parse.typedefMacro
  safe
  · exact pureH (fun _ _ => .inl (Ctx.Is.grow (by assumption) (by grow))) (fun h => h)
  · exact pureH (fun _ _ => .inr rfl) (fun h => h)

theorem typedefOther {r : Rec} (hr : c.RecGood (k + 1) r) :
    Safe c k g h (typedefOther r) (fun r h' => c.Is (.Typename :: defTypes) r.1 h' ∧ c.Opt [.Untyped] r.2.2.2 h') Never := by
  unfold Parse.typedefOther
  safe

/-- The empty type gets a parent: this is the only change to something that was there before. -/
theorem updEmpty {x : Nat} : Safe c k g h (P.change fun h => h.upd c.e.tEmpty fun n => { n with parent := x }) Top Never := by
  refine change (V := fun _ => True) fun h' ho _ => ?_
  unfold Heap.upd
  split
  · rename_i hv
    have hne : ∀ p, c.N ≤ p → p ≠ c.e.tEmpty := fun p hp he => by have := c.tE; omega
    refine ⟨⟨ho.next, fun p hp hpe => ?_, ?_, fun p hp hlt => ?_⟩, ⟨Nat.le_refl _, fun p _ => ?_, fun p _ _ => ?_⟩, trivial⟩
    · show (if p = c.e.tEmpty then _ else _) = _
      rw [if_neg hpe]
      exact ho.old p hp hpe
    · obtain ⟨q, hq⟩ := ho.empty
      refine ⟨x, ?_⟩
      show (if c.e.tEmpty = c.e.tEmpty then _ else _) = _
      rw [if_pos rfl, hq]
    · have hl := ho.links p hp hlt
      have hsame : ∀ q, ((if q = c.e.tEmpty then { h'.cell c.e.tEmpty with parent := x } else h'.cell q) : Node).type = (h'.cell q).type := by
        intro q
        split
        · subst ‹q = _›; rfl
        · rfl
      show c.Links _ (if p = c.e.tEmpty then _ else _)
      rw [if_neg (hne p hp)]
      refine ⟨hl.slots, hl.front, hl.back, fun ht => ?_⟩
      have := hl.nt ht
      refine ⟨this.1.imp id fun h => ⟨h.1, ?_⟩, this.2.imp id fun h => ⟨h.1, ?_⟩⟩
      · exact fun hx => h.2 ((hsame _).symm.trans hx)
      · exact fun hx => h.2 ((hsame _).symm.trans hx)
    · show (if p = c.e.tEmpty then _ else _ : Node).type = _
      split
      · subst ‹p = _›; rfl
      · rfl
    · show (if p = c.e.tEmpty then _ else _ : Node).back = _
      split
      · subst ‹p = _›; rfl
      · rfl
  · trivial
macro_rules | `(tactic| sother) => `(tactic| with_reducible exact Safe.updEmpty)

set_option maxHeartbeats 2000000 in
theorem typedefWith {r : Rec} (hr : c.RecGood (k + 1) r) : Safe c k g h (typedefWith r) (c.Is [.Typedef]) Any := by
  unfold Parse.typedefWith
  sstep
  sstep
  sstep
  sstep
  sstep
  sstep
  · refine bindS typedefMacro fun m h' hg hm => ?_
    rcases hm with hm | hm
    · safe
    · rw [hm]
      have hE : c.Ref c.e.tEmpty := .inr (.inr rfl)
      safe
      all_goals exact (And.right (by assumption : _ ∧ (0 : Nat) ≠ 0) rfl).elim
  · safe

end Safe
end Verif.Parse
