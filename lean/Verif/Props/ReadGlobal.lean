import Verif.Props.Read
/-!
# C56: parse, then print: namespaces and whole files
-/
namespace Verif.Parse
open Verif.Lex (Tok Crlf)
open Verif.Ast
open Verif.Ser hiding Env boundsText isNext

variable {w : World} {c x : Bytes} {ts : List Tok}

theorem Behind.stale {cells : List Tok} {m : Bytes} (h : Behind cells) : Behind (cells.map (Parse.stale m)) := by
  obtain ⟨h1, h2⟩ := h
  refine ⟨by rw [List.length_map]; exact h1, fun t ht => ?_⟩
  cases cells with
  | nil => cases ht
  | cons u l =>
    cases ht
    exact h2 u rfl

/-- What the search for constructors needs, from what the lexer gives. -/
theorem scan_read {ms : Lex.Macros} (hcr : Crlf c) (hl : Lex.lex true w.env.ms c = .ok (some (ts, ms))) (hN : NoCtor (c ++ [0]) ts)
    (hu : ∀ u, ts.getLast? = some u → u.type ∉ [TokType.Identifier, .Operator, .Access_StaticSymbol]) (hB : Behind (w.env.cells.drop ts.length)) :
    Scan (w.read c ts ms).env := by
  have hT := Lex.C27_tiled _ _ _ _ hcr hl
  have hin := hT.inside
  have hlx := hT.lexemes
  have hcell : ∀ (i : Nat) t, i < ts.length → (w.read c ts ms).env.cells[i]? = some t → t ∈ ts := by
    intro i t hi ht
    have ht : (ts ++ (w.env.cells.drop ts.length).map (stale (c ++ [0])))[i]? = some t := ht
    rw [List.getElem?_append_left hi] at ht
    exact List.mem_of_getElem? ht
  refine ⟨fun i t hi ht => ?_, fun i t hi ht ho => ?_, ⟨c, rfl⟩, ?_, ?_, ?_⟩
  · have := hin t (hcell i t hi ht)
    exact ⟨_, List.getElem?_eq_getElem (by show t.start < (c ++ [0]).length; simp; omega)⟩
  · have hm := hcell i t hi ht
    have h1 := hin t hm
    have h2 : 0 < t.len := by
      rcases hlx t hm with ⟨h, -⟩ | h
      · rw [ho] at h; cases h
      · rcases Nat.eq_zero_or_pos t.len with hz | hp
        · exfalso
          rw [hz, show Lex.slice c t.start 0 = [] from by simp [Lex.slice]] at h
          rcases h with ⟨-, h⟩ | h
          · rw [ho] at h
            revert h
            decide +kernel
          · unfold Lex.Shape at h
            rw [ho] at h
            simp at h
        · exact hp
    exact ⟨_, List.getElem?_eq_getElem (by show t.start + 1 < (c ++ [0]).length; simp; omega)⟩
  · show NoCtor (c ++ [0]) (List.take ts.length (ts ++ _))
    rw [List.take_left']
    · exact hN
    · rfl
  · intro t hp ht
    have hp : 0 < ts.length := hp
    have ht : (ts ++ (w.env.cells.drop ts.length).map (stale (c ++ [0])))[ts.length - 1]? = some t := ht
    rw [List.getElem?_append_left (by omega)] at ht
    exact hu t (by rw [List.getLast?_eq_getElem?]; exact ht)
  · show ts.length + 2 ≤ (ts ++ (w.env.cells.drop ts.length).map (stale (c ++ [0]))).length
    have := hB.1
    rw [List.length_append, List.length_map]
    omega

theorem FnEnd.last {b : Bytes} {z : Bytes} {es : List Tok} (h : FnEnd b z es) : ∃ l u, es = l ++ [u] ∧ (u.type = .Statement_End ∨ u.type = .BraceCurly_Close) := by
  cases h with
  | @decl u hu => exact ⟨[], u, rfl, .inl hu.type⟩
  | body hb =>
    cases hb with
    | @empty o z _ hz => exact ⟨[o], z, rfl, .inr hz.type⟩
    | @text o vs z _ _ _ _ _ hz => exact ⟨o :: vs, z, rfl, .inr hz.type⟩

theorem DeclToks.last {ms : Lex.Macros} {b y : Bytes} {p : Place} {next us : List Tok} (h : DeclToks ms b p next y us) :
    ∃ l u, us = l ++ [u] ∧ (u.type = .Statement_End ∨ u.type = .BraceCurly_Close) := by
  cases h with
  | @var _ _ _ hs _ vs u _ _ _ _ hu => exact ⟨hs ++ vs, u, rfl, .inl hu.type⟩
  | @fn _ _ _ hs _ ps _ qs _ es _ _ _ _ _ _ _ _ _ _ hE =>
    obtain ⟨l, u, rfl, hu⟩ := hE.last
    exact ⟨hs ++ ps ++ qs ++ l, u, by simp, hu⟩

theorem VarToks.last {b y : Bytes} {us : List Tok} (h : VarToks b y us) : ∃ l u, us = l ++ [u] ∧ u.type = .Statement_End := by
  obtain ⟨-, -, -, -, -, -, hu⟩ := h
  exact ⟨_, _, rfl, hu.type⟩

theorem RecordToks.first {ms : Lex.Macros} {b : Bytes} {k : RecordKind} (h : RecordToks ms b k x ts) : ∃ t tl, ts = t :: tl ∧ t.type = k.tok := by
  cases h with
  | forward ht => exact ⟨_, _, rfl, ht⟩
  | mk hH =>
    obtain ⟨t, tl, rfl, ht⟩ := hH.first
    exact ⟨t, _, rfl, ht⟩

/-- What the last token of a file can be. -/
abbrev lastToks : List TokType := [.NewLine, .Comment, .Statement_End, .Assign_Classifer, .BraceCurly_Close, .String, .Preprocess_Content, .Preprocess_Else, .Preprocess_EndIf, .Preprocess_Unsupported]

theorem last_cons {u : Tok} (l : List Tok) (hu : u.type ∈ lastToks) (ih : ∀ v, ts.getLast? = some v → v.type ∈ lastToks) :
    ∀ v, (l ++ u :: ts).getLast? = some v → v.type ∈ lastToks := by
  intro v hv
  cases hl : ts.getLast? with
  | none =>
    rw [List.getLast?_eq_none_iff] at hl
    subst hl
    rw [List.getLast?_concat] at hv
    cases hv
    exact hu
  | some z =>
    obtain ⟨r, rfl⟩ := List.getLast?_eq_some_iff.1 hl
    rw [show l ++ u :: (r ++ [z]) = (l ++ u :: r) ++ [z] by simp, List.getLast?_concat] at hv
    cases hv
    exact ih _ hl

theorem DirectiveToks.last {ms : Lex.Macros} {b : Bytes} {p : Place} (h : DirectiveToks ms b p x ts) : ∃ l v, ts = l ++ [v] ∧ v.type ∈ lastToks := by
  have hm : ∀ {v : Tok} {z : Bytes}, MacroText b v z → v.type ∈ lastToks := fun hh => by
    cases hh with
    | none h1 => rw [h1.type]; decide
    | text h1 _ => rw [h1.type]; decide
    | spaced h1 _ => rw [h1.type]; decide
  cases h with
  | @incl t v fl z _ _ hv _ => exact ⟨[t], v, rfl, by rw [hv.type]; decide⟩
  | @pragma t v fl z _ hv _ => exact ⟨[t], v, rfl, by rw [hv.type]; decide⟩
  | @test t w a v fl z _ _ hv _ => exact ⟨[t], v, rfl, by rw [hv.type]; decide⟩
  | @otherwise t ht => exact ⟨[], t, rfl, by rw [ht]; decide⟩
  | @endif t ht => exact ⟨[], t, rfl, by rw [ht]; decide⟩
  | @define t nt fl name m v z _ _ _ _ _ hT => exact ⟨[t, nt], v, rfl, hm hT⟩
  | @function t nt fl name m px ps v z _ _ _ _ _ _ hT => exact ⟨t :: nt :: ps, v, rfl, hm hT⟩

/-- How the tokens of a file end. -/
theorem MembersToks.last {ms : Lex.Macros} {b : Bytes} {p : Place} (h : MembersToks ms b p x ts) : ∀ u, ts.getLast? = some u → u.type ∈ lastToks := by
  induction h with
  | nil => intro u hu; cases hu
  | newline ht _ ih => exact last_cons [] (by rw [ht]; decide) ih
  | comment ht _ ih => exact last_cons [] (by rw [ht.type]; decide) ih
  | semicolon _ ht _ ih => exact last_cons [] (by rw [ht]; decide) ih
  | @label t z y x ts _ hz _ ih => exact last_cons [t] (by rw [hz]; decide) ih
  | @directive p g us y x ts _ hD _ ih =>
    obtain ⟨l, v, rfl, hv⟩ := hD.last
    rw [show g :: (l ++ [v]) ++ ts = (g :: l) ++ v :: ts by simp]
    exact last_cons _ hv ih
  | @other p g t fl y x ts _ _ ht _ _ _ _ ih => exact last_cons [g] (by rw [ht.type]; decide) ih
  | @assertion p t o vs z u y x ts _ _ _ _ _ hu _ _ _ _ ih =>
    rw [show t :: o :: vs ++ z :: u :: ts = (t :: o :: vs ++ [z]) ++ u :: ts by simp]
    exact last_cons _ (by rw [hu]; decide) ih
  | @decl p us y x ts _ hD _ ih =>
    obtain ⟨l, v, rfl, hv⟩ := hD.last
    rw [List.append_assoc, List.singleton_append]
    exact last_cons l (by rcases hv with hv | hv <;> rw [hv] <;> decide) ih
  | @alias p us y x ts _ hA _ _ ih =>
    obtain ⟨l, v, rfl, hv⟩ := hA.last
    rw [List.append_assoc, List.singleton_append]
    exact last_cons l (by rw [hv]; decide) ih
  | @forward p k t n name z x ts _ _ hz _ _ ih => exact last_cons [t, n] (by rw [hz.type]; decide) ih
  | @record p k hx hs o y inner z v x ts _ _ _ _ _ hv _ _ _ ih =>
    rw [show hs ++ o :: inner ++ z :: v :: ts = (hs ++ o :: inner ++ [z]) ++ v :: ts by simp]
    exact last_cons _ (by rw [hv.type]; decide) ih
  | @enumFwd p t n name z x ts _ _ hz _ _ ih => exact last_cons [t, n] (by rw [hz.type]; decide) ih
  | @enumDef p hx hs o y inner z v x ts _ _ _ _ _ hv _ _ ih =>
    rw [show hs ++ o :: inner ++ z :: v :: ts = (hs ++ o :: inner ++ [z]) ++ v :: ts by simp]
    exact last_cons _ (by rw [hv.type]; decide) ih
  | @var us y x ts hV _ _ ih =>
    obtain ⟨l, v, rfl, hv⟩ := hV.last
    rw [List.append_assoc, List.singleton_append]
    exact last_cons l (by rw [hv]; decide) ih
  | @union p hx hs o y inner z v x ts _ _ _ _ _ hv _ _ ih =>
    rw [show hs ++ o :: inner ++ z :: v :: ts = (hs ++ o :: inner ++ [z]) ++ v :: ts by simp]
    exact last_cons _ (by rw [hv.type]; decide) ih
  | space _ _ _ _ _ hz _ _ ih => exact last_cons _ (by rw [hz]; decide) ih
  | @linkage t l fl name o y inner z x ts _ _ _ _ _ hz _ _ ih => 
    rw [show t :: l :: o :: inner ++ z :: ts = (t :: l :: o :: inner) ++ z :: ts by simp]
    exact last_cons _ (by rw [hz]; decide) ih
  | @tdecl p hx hs us y x ts _ _ hD _ ih =>
    obtain ⟨l, v, rfl, hv⟩ := hD.last
    rw [show hs ++ (l ++ [v]) ++ ts = (hs ++ l) ++ v :: ts by simp]
    exact last_cons _ (by rcases hv with hv | hv <;> rw [hv] <;> decide) ih
  | @talias p hx hs us y x ts _ _ hA _ _ _ ih =>
    obtain ⟨l, v, rfl, hv⟩ := hA.last
    rw [show hs ++ (l ++ [v]) ++ ts = (hs ++ l) ++ v :: ts by simp]
    exact last_cons _ (by rw [hv]; decide) ih
  | @tforward p hx hs k t name ns u x ts _ _ _ _ hu _ _ ih =>
    rw [show hs ++ (t :: ns ++ [u]) ++ ts = (hs ++ t :: ns) ++ u :: ts by simp]
    exact last_cons _ (by rw [hu.type]; decide) ih
  | @trecord p tx tl k hx hs o y inner z u x ts _ _ _ _ _ _ hu _ _ _ ih =>
    rw [show tl ++ (hs ++ o :: inner ++ [z, u]) ++ ts = (tl ++ hs ++ o :: inner ++ [z]) ++ u :: ts by simp]
    exact last_cons _ (by rw [hu.type]; decide) ih
  | @tunion p tx tl hx hs o y inner z u x ts _ _ _ _ _ _ hu _ _ ih =>
    rw [show tl ++ (hs ++ o :: inner ++ [z, u]) ++ ts = (tl ++ hs ++ o :: inner ++ [z]) ++ u :: ts by simp]
    exact last_cons _ (by rw [hu.type]; decide) ih

theorem templated_run {e : Env} {s : St} {rest us : List Tok} {y : Bytes} {sc : List Bytes} (hv : TemplatedToks e.ms e.mem more y us) (hm : Calm us (more ++ rest)) (hB : Behind rest)
    (hC : CalledFrom e sc) (hs : s.scope = b!"parser_parse_template" :: sc) (hn : 0 < s.heap.next) (hc : Consts e s.heap.next s.heap) (h : Here e s (us ++ more) rest) :
    Gives (templateBody (recN (e.cells.length + 2))) e s us.length y := by
  have hle := h.length_le
  cases hv with
  | decl hD =>
    obtain ⟨f, fl, k1, k2, k3, k4⟩ := templateOther_gives (more := []) hD hC hB hn hs (by simpa using h)
    rw [k1] at h
    exact templateBody_at h k2 (.inr (.inr (.inr (.inr ⟨k3, rfl⟩)))) k4
  | alias hA ha =>
    obtain ⟨t, tl, k1, k2⟩ := alias_run hA hm hn h
    have hat := ha t (by rw [k1]; rfl)
    rcases k2 with ⟨-, k2⟩ | ⟨k2, -⟩
    · rw [k1] at h
      exact templateBody_at h (isFmt_of_type hat (by decide) (by decide)) (.inr (.inr (.inr (.inl ⟨hat, rfl⟩)))) k2
    · rw [hat] at k2
      cases k2
  | @record k y us hR =>
    obtain ⟨t, tl, k1, k2⟩ := hR.first
    refine template_record (t := t) (ts := tl ++ more) (by rw [k1] at h; exact h) k2 fun sc => ?_
    exact record_run (s := ⟨_, s.heap, sc⟩) hR hm hn hc (h.heap s.heap sc)
  | @union hx hs' o y inner z u hU ho hI hz hu =>
    obtain ⟨t, tl, k1, k2⟩ := hU.first
    refine templateBody_at (t := t) (ts := tl ++ o :: inner ++ [z, u] ++ more) (by rw [k1] at h; simpa using h) (isFmt_of_type k2 (by decide) (by decide)) (.inr (.inr (.inl ⟨k2, rfl⟩))) ?_
    have hlen : (hs' ++ o :: inner ++ [z, u]).length = hs'.length + (inner.length + 3) := by simp
    rw [List.length_append, hlen] at hle
    rw [hlen]
    exact union_gives (n := s.heap.next) hU (members_reads (p := .union) hI (fun hh => False.elim hh) _ _ rfl (by omega) hn) ho hz.type hu.type (Nat.le_refl _) hn hc (by simpa using h)

/-- C56: templates, with everything in them. No other parse is under way: no scope is open, as after `init`. -/
theorem C56_template {ms : Lex.Macros} {hx y : Bytes} {hs us : List Tok} (hr : w.Ready) (hsp : Spelled w.env w.heap) (hsc : w.scope = [])
    (hl : Lex.lex true w.env.ms c = .ok (some (hs ++ us ++ more, ms))) (hT : TemplateHead (c ++ [0]) hx hs) (hv : TemplatedToks ms (c ++ [0]) more y us)
    (hm : Calm us (more ++ w.env.cells.drop (hs ++ us ++ more).length)) (hB : Behind (w.env.cells.drop (hs ++ us ++ more).length)) :
    ParsesAs w parse_template c (hs ++ us).length (hx ++ y) := by
  refine gives_lexed hr hl fun hH => Gives.withRec ?_
  refine template_gives (r := recN _) hT hr.started (by rw [← List.append_assoc]; exact hH) fun g g1 g2 g3 => ?_
  have g2 : w.heap.next ≤ g.next := g2
  have hc : Consts (w.read c (hs ++ us ++ more) ms).env w.heap.next g := (Consts.of hr hsp).keep g1 g2
  refine templated_run (sc := w.scope) hv hm.stale hB.stale (.inl (by rw [hsc]; decide)) rfl (Nat.lt_of_lt_of_le hr.started g2) ⟨hc.spelled, fun p hp => ?_, Nat.le_refl _⟩ g3
  obtain ⟨p1, p2, p3⟩ := hc.each p hp
  exact ⟨Nat.lt_of_lt_of_le p1 g2, p2, p3⟩

/-- C56: whole files. -/
theorem C56_global_body {ms : Lex.Macros} (hr : w.Ready) (hs : Spelled w.env w.heap) (hcr : Crlf c) (hl : Lex.lex true w.env.ms c = .ok (some (ts, ms)))
    (hv : MembersToks ms (c ++ [0]) .file x ts) (hN : NoCtor (c ++ [0]) ts) (hB : Behind (w.env.cells.drop ts.length)) :
    ParsesAs w parse_global_body c ts.length x := by
  have hS := scan_read hcr hl hN (fun u hu hh => by
    have := hv.last u hu
    revert this hh
    cases u.type <;> decide) hB
  have hc : c ≠ [] := by
    intro hh
    subst hh
    revert hl
    have : Lex.lex true w.env.ms [] = .stop := by rfl
    rw [this]
    simp
  have hH := (here_read (w := w) (ms' := ms) (ts := ts) (c := c) (h := w.heap) (sc := b!"parse_global_body" :: w.scope))
  have hlen := hH.length_le
  obtain ⟨h', ps, ys, r1, r2, r3, r4, r5⟩ := fileBody_run (s := ⟨0, w.heap, b!"parse_global_body" :: w.scope⟩) (n := w.heap.next)
    (members_reads hv (fun _ => hS) ((w.read c ts ms).env.cells.length + 2) _ ⟨.Global_Body, by decide, rfl⟩ (by omega) hr.started) (Nat.le_refl _) hr.started (Consts.of hr hs) hB.stale hH
  have r4 : w.heap.next < h'.next := r4
  refine ⟨w.heap.next, _, parse_read hc hl (s' := ⟨ts.length, h', w.scope⟩) ?_, fun q hq => r5 q hq.1 hq.2, ⟨Nat.le_refl _, r4⟩, rfl, ?_⟩
  · refine inScope_run (sc := b!"parse_global_body" :: w.scope) ?_ rfl
    show nspaceWith _ .Global_Body _ _ = _
    rw [r1]
    simp
  · intro E hE hf
    have hE : E.h = h' := hE
    subst hE
    rw [← r3] at hf ⊢
    exact (r2.says (fun q q1 q2 => ⟨⟨Nat.lt_of_lt_of_le hr.started q1, q2⟩, rfl⟩) rfl hf).2

/-- C56: namespaces. -/
theorem C56_namespace {ms : Lex.Macros} {name y : Bytes} {t o z : Tok} {ns inner : List Tok} (hr : w.Ready) (hs : Spelled w.env w.heap) (hcr : Crlf c)
    (hl : Lex.lex true w.env.ms c = .ok (some (t :: ns ++ o :: inner ++ [z], ms))) (ht : t.type = .Decl_Namespace) (hq : QualToks (c ++ [0]) name ns)
    (ho : TokIs (c ++ [0]) o .BraceCurly_Open 0 b!"{") (hv : MembersToks ms (c ++ [0]) .file y inner) (hz : z.type = .BraceCurly_Close)
    (hN : NoCtor (c ++ [0]) (t :: ns ++ o :: inner ++ [z])) (hB : Behind (w.env.cells.drop (ns.length + inner.length + 3))) :
    ParsesAs w parse_namespace c (ns.length + inner.length + 3) (b!"namespace " ++ name ++ b!"\n{\n" ++ y ++ b!"\n}\n") := by
  have hlen : (t :: ns ++ o :: inner ++ [z]).length = ns.length + inner.length + 3 := by simp; omega
  have hS := scan_read hcr hl hN (fun u hu hh => by
    rw [List.getLast?_concat] at hu
    cases hu
    rw [hz] at hh
    revert hh
    decide) (by rw [hlen]; exact hB)
  have := gives_lexed (more := []) (ts := t :: ns ++ o :: inner ++ [z]) (x := b!"namespace " ++ name ++ b!"\n{\n" ++ y ++ b!"\n}\n") (f := withRec parseNamespace) hr
    (by rw [List.append_nil]; exact hl) fun hh => ?_
  · rw [hlen] at this
    exact this
  · rw [List.append_nil] at hh ⊢
    have hle := hh.length_le
    rw [hlen] at hle ⊢
    refine Gives.withRec ?_
    exact namespace_gives (n := w.heap.next) (more := []) (r' := recN ((w.read c (t :: ns ++ o :: inner ++ [z]) ms).env.cells.length + 1)) rfl ht hq ho
      (members_reads hv (fun _ => hS) ((w.read c (t :: ns ++ o :: inner ++ [z]) ms).env.cells.length + 1) _ ⟨.Namespace_Body, by decide, rfl⟩ (by omega) hr.started) hz
      (by have := hB.1; simp at this ⊢; omega) (Nat.le_refl _) hr.started (Consts.of hr hs) hh

theorem GivesIn.withRec {e : Env} {s : St} {f : Rec → P Nat} {n : Nat} (h : GivesIn (f (recN (e.cells.length + 2))) e s n x) : GivesIn (withRec f) e s n x := by
  unfold GivesIn at *
  rw [show Parse.withRec f e s = f (recN (e.cells.length + 2)) e s from rfl]
  exact h

theorem givesIn_lexed {c : Bytes} {f : P Nat} {ms' : Lex.Macros} (hr : w.Ready) (hx : Lex.lex true w.env.ms c = .ok (some (ts, ms')))
    (hf : Here (w.read c ts ms').env ⟨0, w.heap, w.scope⟩ ts ((w.env.cells.drop ts.length).map (stale (c ++ [0]))) →
      GivesIn f (w.read c ts ms').env ⟨0, w.heap, w.scope⟩ ts.length x) : ParsesAs w (fun w d => w.parse d f) c ts.length x := by
  have hc : c ≠ [] := by
    intro hh
    subst hh
    revert hx
    have : Lex.lex true w.env.ms [] = .stop := by rfl
    rw [this]
    simp
  have hf := hf here_read
  obtain ⟨p, h', r1, r2, r3, r4, r5, r6⟩ := hf
  have hs := hr.started
  have r3 : w.heap.next ≤ p := r3
  refine ⟨p, _, parse_read hc hx r1, fun q hq => r2 q hq.1 hq.2, ⟨r3, r4⟩, by simp, ?_⟩
  intro E hE
  have hE : E.h = h' := hE
  subst hE
  refine r6 E 0 (E.h.cell p).front (E.h.cell p).back ?_ ?_ ?_ (.inl rfl)
  · intro q (h1 : w.heap.next ≤ q) h2 _
    exact ⟨⟨by omega, by omega⟩, rfl⟩
  · exact ⟨by omega, by omega⟩
  · rw [← r5.1]

/-- C56: linkage blocks. -/
theorem C56_extern {ms : Lex.Macros} {name y : Bytes} {t l o z : Tok} {fl : Nat} {inner : List Tok} (hr : w.Ready) (hs : Spelled w.env w.heap) (hcr : Crlf c)
    (hl : Lex.lex true w.env.ms c = .ok (some (t :: l :: o :: inner ++ [z], ms))) (ht : t.type = .Decl_Extern_Linkage)
    (hq : TokIs (c ++ [0]) l .String fl (b!"\"" ++ name)) (hne : name ≠ []) (ho : TokIs (c ++ [0]) o .BraceCurly_Open 0 b!"{")
    (hv : MembersToks ms (c ++ [0]) .linkage y inner) (hz : z.type = .BraceCurly_Close)
    (hN : NoCtor (c ++ [0]) (t :: l :: o :: inner ++ [z])) (hB : Behind (w.env.cells.drop (inner.length + 4))) :
    ParsesAs w parse_extern_link c (inner.length + 4) (b!"extern \"" ++ name ++ b!"\"\n{\n" ++ y ++ b!"\n}\n") := by
  have hlen : (t :: l :: o :: inner ++ [z]).length = inner.length + 4 := by simp
  have hS := scan_read hcr hl hN (fun u hu hh => by
    rw [List.getLast?_concat] at hu
    cases hu
    rw [hz] at hh
    revert hh
    decide) (by rw [hlen]; exact hB)
  have := givesIn_lexed (ts := t :: l :: o :: inner ++ [z]) (x := b!"extern \"" ++ name ++ b!"\"\n{\n" ++ y ++ b!"\n}\n") (f := withRec externLink) hr hl fun hh => ?_
  · rw [hlen] at this
    exact this
  · have hle := hh.length_le
    rw [hlen] at hle ⊢
    refine GivesIn.withRec ?_
    exact extern_gives (n := w.heap.next) (more := []) (r' := recN ((w.read c (t :: l :: o :: inner ++ [z]) ms).env.cells.length + 1)) rfl ht hq hne ho
      (members_reads (p := .linkage) hv (fun _ => hS) ((w.read c (t :: l :: o :: inner ++ [z]) ms).env.cells.length + 1) _ rfl (by omega) hr.started) hz
      (by have := hB.1; simp at this ⊢; omega) (Nat.le_refl _) hr.started (Consts.of hr hs) hh

end Verif.Parse
