import Verif.Model.EnumToC
import Verif.Props.EnumTables
/-!
# C69 An enum of C++ for C
-/
namespace Verif.EnumToC
open Ast Round
open Verif.Lex (Piece Macros Tok Pos toksAt)
open Verif.Parse (World P Here Gives Rec stale Single Shown Agree parse_typedef Made AliasToks Calm)
open Verif.EnumTables (Within)

/-! ## Specification -/

/-- The name for the underlying type: what is parsed. -/
def typedefSource (t name : Bytes) : Bytes := b!"typedef " ++ t ++ b!" " ++ name ++ b!";"
/-- The same, as it is printed. -/
def typedefPrinted (t name : Bytes) : Bytes := typedefSource t name ++ b!"\n"
/-- The macro that takes the place of the type. -/
def macroText (t : Bytes) : Bytes := b!"enum_underlying(" ++ t ++ b!")"

/-! ## Reading the name -/

/-- `;` at the end of the content. -/
def lastP : Piece := ⟨[], b!";", [], .Statement_End, 512⟩

@[simp] theorem lastP_all : lastP.all = b!";" := rfl

def pieces (t : Ty) (n : Bytes) : List Piece := kwP [] b!"typedef" .Decl_Typedef :: (typeP b!" " t ++ [idP (typeGap t ++ b!" ") n, lastP])

theorem written_pieces {t : Ty} {n : Bytes} : written (pieces t n) = typedefSource t.text n := by
  have h := written_type (g := b!" ") (t := t)
  rw [pieces, written_cons, written_append, written_cons, idP_all, List.append_assoc (typeGap t), List.append_assoc (typeGap t), ← List.append_assoc (written (typeP _ _)), h, typedefSource]
  simp

theorem pieces_run {ms : Macros} {t : Ty} {n : Bytes} (h1 : t.Ok ms) (h2 : IsName ms n) : Run ms true (pieces t n) [] false := by
  have e : Ends b!" " (written [idP (typeGap t ++ b!" ") n, lastP] ++ []) := by
    rw [written_cons, idP_all, List.append_assoc, List.append_assoc]; exact gap_ends
  refine .kw ⟨(by intro x h; cases h), fun _ x h => by cases h⟩ word_typedef (by decide +kernel) (by decide) ?_ (.append (type_run (.of one_space) h1 (e.mono (by decide)) fun _ => e) (.id (.of (gap_name t)) h2 ?_ ?_))
  · rw [written_append, List.append_assoc]; exact type_ends.mono (by decide)
  · exact .cons (by decide)
  · exact ⟨⟨(by intro x h; cases h), (by intro _ x h; cases h), .token (.semicolon (.none (n := 0) (by intro x h; cases h))), trivial⟩, rfl⟩

theorem starts {t : Ty} {n : Bytes} : Starts (pieces t n) (kwP [] b!"typedef" .Decl_Typedef) := ⟨rfl, rfl, (by intro hh; cases hh)⟩

theorem toks {c : Bytes} {ms : Macros} {p : Pos} {t : Ty} {n : Bytes} (h1 : t.Ok ms) (h2 : IsName ms n) (ho : On c p (pieces t n)) :
    AliasToks c (typedefPrinted t.text n) (toksAt p (pieces t n)) := by
  have := AliasToks.typedef (t := tokOf p (kwP [] b!"typedef" .Decl_Typedef)) rfl (ho.tail.left.type h1) (ho.tail.right.idTok h2.word) (.bounds .nil) (by simp) ho.tail.right.tail.tokIs
  rw [pieces, toksAt_cons, toksAt_append, toksAt_cons, toksAt_cons, toksAt_nil]
  simpa [typedefPrinted, typedefSource, Ty.text, Parse.boundsText] using this

theorem read_name {w : World} {t : Ty} {n : Bytes} (hr : w.Ready) (h1 : t.Ok w.env.ms) (h2 : IsName w.env.ms n) (hf : Fresh w (typedefSource t.text n)) :
    ∃ p w', parse_typedef w (typedefSource t.text n) = .ok (p, w') ∧ w'.env.cfg = w.env.cfg ∧ Within w.heap w'.heap ∧ Made w w' p ∧ Single w'.heap p ∧
      Shown w.heap.next p w'.heap (typedefPrinted t.text n) := by
  have hl := lex_pieces (g := []) (by intro x hx; cases hx) (pieces_run h1 h2).1 starts
  rw [written_pieces, List.nil_append] at hl
  have ho := on_all (g := []) (l := pieces t n) (e := [0])
  rw [written_pieces, List.nil_append] at ho
  have hv := toks h1 h2 ho
  have hm := hf.calm hl
  have hc : typedefSource t.text n ≠ [] := by simp [typedefSource]
  have hh := Parse.here_read (w := w) (c := typedefSource t.text n) (ts := toksAt (Pos.after ⟨0, 1, 1⟩ []) (pieces t n)) (ms' := w.env.ms) (h := w.heap) (sc := w.scope)
  rw [List.append_nil] at hm
  obtain ⟨t', tl, e, ⟨k, -⟩ | ⟨-, k⟩⟩ := Parse.alias_run (more := []) hv hm.stale hr.started (by rw [List.append_nil]; exact hh)
  · rw [pieces, toksAt_cons] at e
    cases e
    cases k
  · obtain ⟨p, h', r1, r2, r3, r4, r5, r6⟩ := Gives.withRec (k _)
    have hs := hr.started
    have r3 : w.heap.next ≤ p := r3
    refine ⟨p, _, Parse.parse_read hc hl r1, rfl, fun q hq => r2 q hq.1 hq.2, ⟨r3, ?_⟩, r5, r6⟩
    show p < h'.next
    omega

/-! ## Formatting -/

theorem one_eq {crit : Nat → Nat} {tbl : HTable Bytes} (h : HTable.Holds tbl (fun _ => none)) {v : Bytes} (hl : (macroText v).length ≤ Fmt.printfMax) :
    ∃ tbl', TokenFmt.tokenFmtVa crit Fmt.printfMax tbl [(b!"type" ++ [0], v)] (macroTemplate ++ [0]) = .ok (macroText v, tbl') ∧ HTable.Holds tbl' (fun _ => none) := by
  obtain ⟨tbl', h1, h2⟩ := TokenFmt.C19_substitution crit Fmt.printfMax tbl h [(b!"type", v)] (by intro p hp; simp at hp; subst hp; show (0 : UInt8) ∉ b!"type"; decide)
    [.lit b!"enum_underlying(", .tok b!"type" v, .lit b!")"]
    (by
      intro p hp
      simp only [List.mem_cons, List.not_mem_nil, or_false] at hp
      rcases hp with rfl | rfl | rfl
      · exact ⟨by decide, by decide⟩
      · exact ⟨by decide, by decide, by simp [TokenFmt.binding]⟩
      · exact ⟨by decide, by decide⟩)
    (by
      intro x hx y hy _
      simp [TokenFmt.Piece.names] at hx hy
      rw [hx, hy])
    (by simpa [TokenFmt.Piece.dst, macroText] using hl)
  refine ⟨tbl', ?_, h2⟩
  have e : [TokenFmt.Piece.lit b!"enum_underlying(", .tok b!"type" v, .lit b!")"].flatMap TokenFmt.Piece.dst = macroText v := by simp [TokenFmt.Piece.dst, macroText]
  rw [e] at h1
  rw [← h1]
  simp [TokenFmt.cstr, TokenFmt.Piece.src, macroTemplate]

theorem two_eq {crit : Nat → Nat} {tbl : HTable Bytes} (h : HTable.Holds tbl (fun _ => none)) {v u : Bytes} (hl : (typedefSource v u).length ≤ Fmt.printfMax) :
    ∃ tbl', TokenFmt.tokenFmtVa crit Fmt.printfMax tbl [(b!"type" ++ [0], v), (b!"name" ++ [0], u)] (typedefTemplate ++ [0]) = .ok (typedefSource v u, tbl') ∧
      HTable.Holds tbl' (fun _ => none) := by
  obtain ⟨tbl', h1, h2⟩ := TokenFmt.C19_substitution crit Fmt.printfMax tbl h [(b!"type", v), (b!"name", u)]
    (by
      intro p hp
      simp only [List.mem_cons, List.not_mem_nil, or_false] at hp
      rcases hp with rfl | rfl
      · show (0 : UInt8) ∉ b!"type"; decide
      · show (0 : UInt8) ∉ b!"name"; decide)
    [.lit b!"typedef ", .tok b!"type" v, .lit b!" ", .tok b!"name" u, .lit b!";"]
    (by
      intro p hp
      simp only [List.mem_cons, List.not_mem_nil, or_false] at hp
      rcases hp with rfl | rfl | rfl | rfl | rfl
      · exact ⟨by decide, by decide⟩
      · exact ⟨by decide, by decide, by simp [TokenFmt.binding]⟩
      · exact ⟨by decide, by decide⟩
      · exact ⟨by decide, by decide, by simp [TokenFmt.binding]⟩
      · exact ⟨by decide, by decide⟩)
    (by
      have key : ∀ x ∈ [b!"type", b!"name", b!"type", b!"name"], ∀ y ∈ [b!"type", b!"name", b!"type", b!"name"], Crc.crc32 x = Crc.crc32 y → x = y := by decide +kernel
      exact key)
    (by simpa [TokenFmt.Piece.dst, typedefSource] using hl)
  refine ⟨tbl', ?_, h2⟩
  have e : [TokenFmt.Piece.lit b!"typedef ", .tok b!"type" v, .lit b!" ", .tok b!"name" u, .lit b!";"].flatMap TokenFmt.Piece.dst = typedefSource v u := by simp [TokenFmt.Piece.dst, typedefSource]
  rw [e] at h1
  rw [← h1]
  simp [TokenFmt.cstr, TokenFmt.Piece.src, typedefTemplate]

/-! ## The body -/

theorem payload_links {n m : Node} (h : n.payload = m.payload) : n = { m with parent := n.parent, front := n.front, back := n.back } := by
  cases n
  cases m
  cases h
  rfl

/-- What is there after an enum with the node `n` was appended to the body `b` with the entries `l`: the entries `o` and `p`. -/
structure Converted (h h' : Heap) (b q o p u : Nat) (n : Node) (l : List Nat) (type name : Bytes) : Prop where
  body : IsBody h' b (l ++ [o, p])
  same : (h'.cell b).type = (h.cell b).type
  /-- the enum itself, or a copy of it if it was in a body -/
  enum : o = q ∨ h.next ≤ o
  self : n.parent = 0 → o = q
  /-- it is what it was, but for the type -/
  node : (h'.cell o).payload = { n with typ := 0, params := u }.payload
  given : (h'.cell q).payload = { n with typ := 0, params := u }.payload
  /-- the macro that is there instead -/
  macroNode : h'.Valid u ∧ h.next ≤ u ∧ h'.cell u = { type := .Untyped, name := macroText (h.cell n.typ).name, content := macroText (h.cell n.typ).name }
  new : h.next ≤ p
  /-- the name for the type -/
  shows : ∀ E : Ser.Env, E.h = h' → Ser.Says E .code p (typedefPrinted type name)
  /-- the rest is what it was -/
  rest : ∀ x, h.Valid x → h'.Valid x ∧ (x ≠ q → x ≠ b → (h'.cell x).payload = (h.cell x).payload)

theorem C69_underlying {crit : Nat → Nat} {lt : Bool} {null : Nat → Bool} {tbl : HTable Bytes} {w : World} {q b : Nat} {l : List Nat} {t : Ty}
    (hr : w.Ready) (htbl : HTable.Holds tbl (fun _ => none)) (hb : IsBody w.heap b l) (hbt : isBodyType (w.heap.cell b).type = true) (hq : w.heap.Valid q) (hqb : q ≠ b) (hql : q ∉ l)
    (hqt : isBodyType (w.heap.cell q).type = false) (ht : w.heap.Valid (w.heap.cell q).typ) (hok : t.Ok w.env.ms) (hname : IsName w.env.ms (w.heap.cell q).name)
    (hp : Ser.Prints { h := w.heap, lt := lt, nullStr := null } .typename (w.heap.cell q).typ t.text)
    (hl : (typedefSource t.text (w.heap.cell q).name).length ≤ 131000 ∧ (macroText (w.heap.cell (w.heap.cell q).typ).name).length ≤ 131000) (hf : Fresh w (typedefSource t.text (w.heap.cell q).name)) :
    ∃ fuel tbl' w' o p u, convert crit fuel lt null tbl w q b = .ok (tbl', w') ∧ Converted w.heap w'.heap b q o p u (w.heap.cell q) l t.text (w.heap.cell q).name ∧
      HTable.Holds tbl' (fun _ => none) := by
  obtain ⟨fuel, hp⟩ := hp
  generalize hn : w.heap.cell q = n at *
  obtain ⟨tbl1, e1, k1⟩ := two_eq (crit := crit) htbl (v := t.text) (u := n.name) (by unfold Fmt.printfMax; omega)
  obtain ⟨p, w1, e2, hcfg, n1, d1, s1, sh⟩ := read_name hr hok hname hf
  obtain ⟨v1, c1⟩ := n1 _ ht
  obtain ⟨tbl2, e3, k2⟩ := one_eq (crit := crit) k1 (v := (w.heap.cell n.typ).name) (by unfold Fmt.printfMax; omega)
  have h1n : 0 < w1.heap.next := Nat.lt_of_le_of_lt (Nat.zero_le _) d1.2
  obtain ⟨h2, e4, v2, c2, g2⟩ := (C29_untyped_str w1.env.cfg h1n (macroText (w.heap.cell n.typ).name)).1 (by simp [macroText])
  obtain ⟨vq1, cq1⟩ := n1 q hq
  obtain ⟨vq2, cq2⟩ := g2 q vq1
  obtain ⟨u, hu⟩ : ∃ u, u = w1.heap.next := ⟨_, rfl⟩
  rw [← hu] at e4 v2 c2
  have hpu : p < u := by rw [hu]; exact d1.2
  have hwp : w.heap.next ≤ p := d1.1
  have e5 : ∃ h4, ((h2.upd q fun n => { n with params := u }).bind fun h => h.upd q fun n => { n with typ := 0 }) = .ok h4 ∧ h4.next = h2.next ∧
      h4.cell q = { n with params := u, typ := 0 } ∧ ∀ x, x ≠ q → h4.cell x = h2.cell x := by
    refine ⟨{ h2 with cell := fun x => if x = q then { n with params := u, typ := 0 } else h2.cell x }, ?_, rfl, by simp, fun x hx => by simp [hx]⟩
    rw [upd_ok vq2, Res.ok_bind, upd_ok (by exact vq2)]
    congr 2
    funext x
    by_cases hx : x = q <;> simp [hx, cq2, cq1, hn]
  obtain ⟨h4, e5, x4, cq4, g4⟩ := e5
  have keep2 : ∀ x, w1.heap.Valid x → x ≠ q → h4.Valid x ∧ h4.cell x = w1.heap.cell x := fun x hx hxq => by
    obtain ⟨y1, y2⟩ := g2 x hx
    exact ⟨⟨y1.1, by rw [x4]; exact y1.2⟩, (g4 x hxq).trans y2⟩
  have keep1 : ∀ x, w.heap.Valid x → x ≠ q → h4.Valid x ∧ h4.cell x = w.heap.cell x := fun x hx hxq => by
    obtain ⟨y1, y2⟩ := n1 x hx
    obtain ⟨y3, y4⟩ := keep2 x y1 hxq
    exact ⟨y3, y4.trans y2⟩
  have v4q : h4.Valid q := ⟨vq2.1, by rw [x4]; exact vq2.2⟩
  have hb4 : IsBody h4 b l := Parse.IsBody.agree hb (fun x hx => by
    rcases hx with rfl | hx
    · exact keep1 _ hb.valid (Ne.symm hqb)
    · exact keep1 x (hb.chain.valid x hx) (fun hh => hql (hh ▸ hx))) (Nat.lt_of_le_of_lt (Nat.zero_le _) v4q.2)
  have vp1 : w1.heap.Valid p := ⟨by have := hq.2; omega, by rw [← hu]; exact hpu⟩
  have hpq : p ≠ q := by have := hq.2; omega
  have hpb : p ≠ b := by have := hb.valid.2; omega
  have hold : ∀ x ∈ l, x < w.heap.next := fun x hx => (hb.chain.valid x hx).2
  obtain ⟨v4p, c4p⟩ := keep2 p vp1 hpq
  have hu4 : h4.Valid u ∧ h4.cell u = { type := .Untyped, name := macroText (w.heap.cell n.typ).name, content := macroText (w.heap.cell n.typ).name } := by
    refine ⟨⟨v2.1, by rw [x4]; exact v2.2⟩, ?_⟩
    rw [g4 u (by have := hq.2; omega)]
    exact c2
  obtain ⟨h5, o, e6, hb5, a5⟩ := append_spec hb4 v4q hqb
  have ho : o = q ∨ h4.next ≤ o := by
    rw [a5.fresh]
    split
    · exact .inl rfl
    · exact .inr (Nat.le_refl _)
  have grow4 : ∀ x, h4.Valid x → h5.Valid x := fun x hx => ⟨hx.1, Nat.lt_of_lt_of_le hx.2 a5.grow⟩
  have hlast : ∀ x, w.heap.next ≤ x → l.getLast? ≠ some x := fun x hx hh => by
    have := hold x (List.mem_of_getLast? hh)
    omega
  have new5 : ∀ x, w.heap.next ≤ x → h4.Valid x → h5.cell x = h4.cell x := fun x hx hv => by
    rw [a5.frame x hv (by have := hb.valid.2; omega) (by rcases ho with rfl | ho; · have := hq.2; omega
                                                         · have := hv.2; omega), if_neg (hlast x hx)]
  obtain ⟨h6, o', e7, hb6, a6⟩ := append_spec hb5 (grow4 p v4p) hpb
  have c5p : h5.cell p = w1.heap.cell p := (new5 p hwp v4p).trans c4p
  have ho' : o' = p := by rw [a6.fresh, c5p, if_pos s1.1]
  subst ho'
  have grow5 : ∀ x, h5.Valid x → h6.Valid x := fun x hx => ⟨hx.1, Nat.lt_of_lt_of_le hx.2 a6.grow⟩
  have new6 : ∀ x, w.heap.next ≤ x → h4.Valid x → x ≠ o' → h6.cell x = h4.cell x := fun x hx hv hxp => by
    rw [a6.frame x (grow4 x hv) (by have := hb.valid.2; omega) hxp, if_neg, new5 x hx hv]
    rw [List.getLast?_concat]
    rintro ⟨⟩
    rcases ho with rfl | ho
    · have := hq.2; omega
    · have := hv.2; omega
  have hnq : (h4.cell q).payload = { n with typ := 0, params := u }.payload := by rw [cq4]
  have v5q := grow4 q v4q
  have hoq : (h5.cell o).payload = { n with typ := 0, params := u }.payload := a5.node.trans hnq
  have v5o : h5.Valid o := hb5.chain.valid o (by simp)
  have tb : (h6.cell b).type = (w.heap.cell b).type := by
    have y1 : (h6.cell b).type = (h5.cell b).type := payload_type (m := { h5.cell b with num := (h5.cell b).num + 1 }) a6.bodyPayload.1
    have y2 : (h5.cell b).type = (h4.cell b).type := payload_type (m := { h4.cell b with num := (h4.cell b).num + 1 }) a5.bodyPayload.1
    rw [y1, y2, (keep1 b hb.valid (Ne.symm hqb)).2]
  refine ⟨fuel, tbl2, { w1 with heap := h6 }, o, o', u, ?_, ?_, k2⟩
  · unfold convert
    simp only [Res.bind_eq, Res.pure_eq]
    rw [get_ok hq, Res.ok_bind, hn]
    unfold typedefCode
    have hz : n.typ ≠ 0 := Nat.ne_of_gt ht.1
    rw [if_pos hz]
    simp only [Res.bind_eq, Res.pure_eq]
    rw [hp, Res.ok_bind, e1, Res.ok_bind]
    simp only []
    rw [e2, Res.ok_bind]
    simp only [Res.ok_bind]
    unfold exchange
    rw [if_pos hz]
    simp only [Res.bind_eq, Res.pure_eq]
    rw [get_ok v1, Res.ok_bind, c1, e3, Res.ok_bind]
    simp only []
    rw [e4, Res.ok_bind]
    simp only []
    obtain ⟨h3, z1, z2⟩ := Res.bind_eq_ok.1 e5
    rw [z1, Res.ok_bind, z2, Res.ok_bind, Res.ok_bind]
    simp only []
    rw [bodyAppend_plain (Nat.ne_of_gt hb.valid.1) v4q (by rw [cq4]; show isBodyType n.type = false; exact hqt), e6, Res.ok_bind,
      bodyAppend_plain (Nat.ne_of_gt hb.valid.1) (grow4 _ v4p) (by rw [c5p]; exact s1.2), e7, Res.ok_bind]
  · refine { body := by simpa using hb6, same := tb, enum := ho.imp id (fun hh => ?_), self := fun hh => ?_, node := (a6.same o v5o a5.notBody).trans hoq, given := ?_,
             macroNode := ⟨grow5 u (grow4 u hu4.1), by omega, ?_⟩, new := hwp, shows := fun E hE => ?_, rest := fun x hx => ⟨?_, fun hxq hxb => ?_⟩ }
    · have := v4p.2; omega
    · rw [a5.fresh, cq4, if_pos hh]
    · rw [a6.same q v5q hqb, a5.same q v4q hqb, hnq]
    · rw [new6 u (by omega) hu4.1 (by omega)]
      exact hu4.2
    · have hv6 : h6.Valid o' := hb6.chain.valid o' (by simp)
      refine sh E b (h6.cell o').front (h6.cell o').back (fun x hx hxp => ?_) (hE ▸ hv6) ?_ (.inr ?_)
      · have hx : w.heap.next ≤ x := hx
        have hx1 : w1.heap.Valid x := ⟨by have := hq.2; omega, by rw [← hu]; omega⟩
        obtain ⟨y1, y2⟩ := keep2 x hx1 (by have := hq.2; omega)
        rw [hE]
        exact ⟨grow5 x (grow4 x y1), (new6 x hx y1 (by omega)).trans y2⟩
      · rw [hE]
        have y := payload_links (n := h6.cell o') (m := w1.heap.cell o') (by rw [← c5p]; exact a6.node)
        rw [hb6.parents o' (by simp)] at y
        exact y
      · have vb6 := hb6.valid
        rw [hE]
        refine ⟨vb6, ?_, ?_⟩ <;> (rw [tb]; intro hh; rw [hh] at hbt; cases hbt)
    · by_cases hxq : x = q
      · rw [hxq]; exact grow5 q v5q
      · exact grow5 x (grow4 x (keep1 x hx hxq).1)
    · obtain ⟨y1, y2⟩ := keep1 x hx hxq
      rw [a6.same x (grow4 x y1) hxb, a5.same x y1 hxb, y2]

/-! ## The text -/

theorem under_text {h h' : Heap} {b q o p u : Nat} {n : Node} {l : List Nat} {type name bt : Bytes} (hc : Converted h h' b q o p u n l type name) {E : Ser.Env} (hE : E.h = h')
    (hbt : isBodyType (h.cell b).type = true) (m : Bytes) (hm : m = (h.cell n.typ).name) :
    ∃ k, h'.cell o = k ∧ h'.Valid o ∧ k.type = n.type ∧ k.typ = 0 ∧ k.params = u ∧ k.attributes = n.attributes ∧ k.body = n.body ∧ k.name = n.name ∧
      k.moduleFlags = n.moduleFlags ∧ Ser.Slot E k.parent ∧ (∀ x, Ser.endText E k x = x) ∧ (k.params ≠ 0 → Ser.Prints E .code k.params (macroText m)) := by
  have y := payload_links hc.node
  rw [← hc.same] at hbt
  have vb := hc.body.valid
  have hpar := hc.body.parents o (by simp)
  refine ⟨_, rfl, hc.body.chain.valid o (by simp), ?_⟩
  rw [hpar] at y
  rw [y]
  refine ⟨rfl, rfl, rfl, rfl, rfl, rfl, rfl, fun _ => hE ▸ vb, fun x => ?_, fun _ => ?_⟩
  · unfold Ser.endText
    rw [if_neg]
    rintro ⟨-, hh⟩
    rw [hE] at hh
    rcases hh with hh | hh <;> (simp only [hh] at hbt; cases hbt)
  · obtain ⟨h1, -, h2⟩ := hc.macroNode
    exact Ser.C48_text (e := E) (p := u) (n := { type := .Untyped, name := macroText m, content := macroText m }) (.inl ⟨hE ▸ h1, by rw [hE, h2, hm], rfl⟩)

/-- C69: the enum is printed with the macro where the type was. -/
theorem C69_enum_text {h h' : Heap} {b q o p u : Nat} {n : Node} {l : List Nat} {type name bt : Bytes} (hc : Converted h h' b q o p u n l type name) {E : Ser.Env} (hE : E.h = h')
    (hbt : isBodyType (h.cell b).type = true) (ht : n.type = .Enum) (ha : n.attributes = 0) (hn : n.name ≠ []) (hb : Ser.Prints E .body n.body bt) :
    Ser.Says E .code o (Ser.exportText n ++ b!"enum " ++ n.name ++ b!" " ++ macroText (h.cell n.typ).name ++ b!"\n{\n" ++ bt ++ b!"\n};\n") := by
  obtain ⟨k, k0, k1, k2, k3, k4, k5, k6, k7, k8, k9, k10, k11⟩ := under_text (bt := bt) hc hE hbt _ rfl
  have hu : 0 < u := hc.macroNode.1.1
  have := Ser.C45_enum (e := E) (p := o) (n := k) (t := bt) (ut := []) (mt := macroText (h.cell n.typ).name) ⟨hE ▸ k1, by rw [hE, k0], k2.trans ht⟩ (by rw [k6]; exact hb)
    (fun hh => absurd (k5.trans ha) hh) k9 (fun hh => absurd k3 hh) k11
  have e1 : Ser.exportText k = Ser.exportText n := by
    have hx : Ser.exported k ↔ Ser.exported n := by unfold Ser.exported; rw [k8]
    simp [Ser.exportText, Ser.ifText, hx]
  rw [e1, k10] at this
  have e2 : Ser.attrText E k = [] := by simp [Ser.attrText, Ser.optText, k5, ha]
  have e3 : Ser.nameText E o = n.name := by rw [Ser.nameText, hE, k0, k7, Ser.strText, if_neg (fun hh => hn hh.1)]
  have e4 : Ser.underText k [] (macroText (h.cell n.typ).name) = b!" " ++ macroText (h.cell n.typ).name := by
    simp [Ser.underText, Ser.optText, k3, k4, Nat.ne_of_gt hu]
  rw [e2, e3, e4] at this
  simpa using this

/-- C69 is false of `enum class`: neither the type nor the macro is printed, nor `class`. -/
theorem C69_class_refuted {h h' : Heap} {b q o p u : Nat} {n : Node} {l : List Nat} {type name bt : Bytes} (hc : Converted h h' b q o p u n l type name) {E : Ser.Env} (hE : E.h = h')
    (hbt : isBodyType (h.cell b).type = true) (ht : n.type = .Enum_Class) (ha : n.attributes = 0) (hn : n.name ≠ []) (hb : Ser.Prints E .body n.body bt) :
    Ser.Says E .code o (Ser.exportText n ++ b!"enum " ++ n.name ++ b!"\n{\n" ++ bt ++ b!"\n};\n") := by
  obtain ⟨k, k0, k1, k2, k3, k4, k5, k6, k7, k8, k9, k10, k11⟩ := under_text (bt := bt) hc hE hbt _ rfl
  have := Ser.C45_enum_class_refuted (e := E) (p := o) (n := k) (t := bt) ⟨hE ▸ k1, by rw [hE, k0], k2.trans ht⟩ (by rw [k6]; exact hb) k9 (k5.trans ha) k3
  have e1 : Ser.exportText k = Ser.exportText n := by
    have hx : Ser.exported k ↔ Ser.exported n := by unfold Ser.exported; rw [k8]
    simp [Ser.exportText, Ser.ifText, hx]
  rw [e1, k10] at this
  have e3 : Ser.nameText E o = n.name := by rw [Ser.nameText, hE, k0, k7, Ser.strText, if_neg (fun hh => hn hh.1)]
  rw [e3] at this
  simpa using this

end Verif.EnumToC
