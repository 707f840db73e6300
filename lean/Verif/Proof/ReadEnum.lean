import Verif.Proof.ReadAlias
/-!
# Running the parser on enums
-/
namespace Verif.Parse
open Verif.Lex (Tok)
open Verif.Ast P
open Verif.Ser hiding Env boundsText isNext

variable {e : Env} {s : St} {t u : Tok} {us fs ts vs more rest : List Tok} {x y name : Bytes} {a b : Nat}

theorem isFmt_of_not (h : ¬ Code t) : isFmt t = true := by
  unfold isFmt
  unfold Code at h
  by_cases h1 : t.type = .NewLine
  · simp [h1]
  · by_cases h2 : t.type = .Comment
    · simp [h2]
    · exact absurd ⟨h1, h2⟩ h

/-- Line breaks and comments are skipped. -/
theorem Here.curs (hf : ∀ t ∈ fs, ¬ Code t) (ht : isFmt t = false) (h : Here e s (fs ++ t :: more) rest) : Parse.cur e s = .ok (t, s.adv fs.length) := by
  have key : ∀ (fs : List Tok) (i : Nat), (∀ t ∈ fs, ¬ Code t) → skipFmt isFmt (fs ++ t :: (more ++ rest)) i = .ok (t, i + fs.length) := by
    intro fs
    induction fs with
    | nil =>
      intro i _
      show skipFmt isFmt (t :: _) i = _
      unfold skipFmt
      rw [ht]
      rfl
    | cons f fs ih =>
      intro i hh
      show skipFmt isFmt (f :: (fs ++ _)) i = _
      unfold skipFmt
      rw [isFmt_of_not (hh f List.mem_cons_self)]
      simp only [if_true]
      rw [ih (i + 1) fun u hu => hh u (List.mem_cons_of_mem _ hu)]
      simp
      omega
  unfold Parse.cur
  rw [h.cells, List.append_assoc, List.cons_append, key fs s.idx hf]
  rfl

/-- What ends an enumerator. -/
structure EntryEnd (t : Tok) : Prop where
  type : t.type = .Comma ∨ t.type = .BraceCurly_Close

theorem EntryEnd.fmt (h : EntryEnd t) : isFmt t = false := by
  rcases h.type with h | h
  · exact isFmt_of_type h (by decide) (by decide)
  · exact isFmt_of_type h (by decide) (by decide)

theorem enumValue_run (hv : ∀ v ∈ vs, Code v ∧ v.type ≠ .Comma ∧ v.type ≠ .BraceCurly_Close) (hf : ∀ t ∈ fs, ¬ Code t) (ht : EntryEnd t)
    (h : Here e s (vs ++ fs ++ t :: more) rest) : enumValue e s = .ok ((), s.adv (vs.length + fs.length)) := by
  have key : ∀ (vs : List Tok) (s : St), (∀ v ∈ vs, Code v ∧ v.type ≠ .Comma ∧ v.type ≠ .BraceCurly_Close) → Here e s (vs ++ fs ++ t :: more) rest →
      Turns (fun (_ : Unit) => do
        let t ← Parse.cur
        if t.type ≠ .Comma ∧ t.type ≠ .BraceCurly_Close then
          eat t.type
          return (true, ())
        else return (false, ())) e (vs.length + 1) () s () (s.adv (vs.length + fs.length)) := by
    intro vs
    induction vs with
    | nil =>
      intro s _ h
      refine .stop ?_
      refine bind_run (Here.curs hf ht.fmt h) ?_
      rw [iteP, if_neg (by rcases ht.type with h | h <;> rw [h] <;> decide)]
      simp [pureP]
    | cons v vs ih =>
      intro s hv h
      have h1 := hv v List.mem_cons_self
      have h' : Here e s (v :: (vs ++ fs ++ t :: more)) rest := by simpa using h
      have := ih (s.adv 1) (fun w hw => hv w (List.mem_cons_of_mem _ hw)) h'.tail
      refine .go (n := vs.length + 1) (y := ()) (s' := s.adv 1) ?_ ?_
      · refine bind_run (h'.cur h1.1.fmt) ?_
        rw [iteP, if_pos h1.2]
        exact bind_run h'.eat rfl
      · have e1 : (s.adv 1).adv (vs.length + fs.length) = s.adv ((v :: vs).length + fs.length) := by
          unfold St.adv
          simp
          omega
        rw [← e1]
        exact this
  unfold enumValue
  refine bind_run ((key vs s hv h).loop ?_) rfl
  have := h.length_le
  simp at this
  omega

/-- The end of `enumEntry`: a macro, the comma, the text. -/
def enumEnd (start : Nat) : P Nat := do
  if (← cur).type = .Preprocess_Macro_Expr then
    let _ ← simplePreprocess .Preprocess_Macro_Expr
  if (← cur).type = .Comma then eat .Comma
  untyped (← upToPrev start)

theorem enumEnd_comma {f k : Tok} {tl : List Tok} (hk : k.type = .Comma) (hx : Spans e.mem (f :: tl ++ [k]) y) (hy : y ≠ []) (hn : 0 < s.heap.next) (h : Here e s (f :: tl ++ k :: more) rest) :
    enumEnd f.start e (s.adv (tl.length + 1)) = .ok (s.heap.next, ⟨s.idx + (tl.length + 2), grown s.heap (textNode y), s.scope⟩) := by
  have hh : Here e (s.adv (tl.length + 1)) (k :: more) rest := h.advN.at (by simp)
  have hkf : isFmt k = false := isFmt_of_type hk (by decide) (by decide)
  have hx' := hx
  obtain ⟨f', l', hf', hl', hlen, htext⟩ := hx'
  cases hf'
  unfold enumEnd
  refine bind_run (hh.cur hkf) ?_
  simp only [hk, reduceCtorEq, if_false]
  refine bind_run (hh.cur hkf) ?_
  simp only [hk, if_true]
  have := hh.eat
  rw [hk] at this
  refine bind_run this ?_
  refine bind_run (upToPrev_run (s := s) (ts := tl ++ [k]) (more := more) (by simpa using h) (by simpa using hx) (s' := (s.adv (tl.length + 1)).adv 1) (by simp [St.adv]; omega)) ?_
  rw [untyped_run htext hy (by exact hn)]
  simp [St.adv]
  omega

theorem enumEnd_last {f z : Tok} {tl : List Tok} (hz : z.type = .BraceCurly_Close) (hx : Spans e.mem (f :: tl) y) (hy : y ≠ []) (hn : 0 < s.heap.next) (h : Here e s (f :: tl ++ z :: more) rest) :
    enumEnd f.start e (s.adv (tl.length + 1)) = .ok (s.heap.next, ⟨s.idx + (tl.length + 1), grown s.heap (textNode y), s.scope⟩) := by
  have hh : Here e (s.adv (tl.length + 1)) (z :: more) rest := h.advN.at (by simp)
  have hkf : isFmt z = false := isFmt_of_type hz (by decide) (by decide)
  have hx' := hx
  obtain ⟨f', l', hf', hl', hlen, htext⟩ := hx'
  cases hf'
  unfold enumEnd
  refine bind_run (hh.cur hkf) ?_
  simp only [hz, reduceCtorEq, if_false]
  refine bind_run (hh.cur hkf) ?_
  simp only [hz, reduceCtorEq, if_false]
  refine bind_run (upToPrev_run (s := s) (ts := tl) (more := z :: more) (by simpa using h) (by simpa using hx) (s' := s.adv (tl.length + 1)) (by simp [St.adv])) ?_
  rw [untyped_run htext hy (by exact hn)]
  simp [St.adv]

/-- Up to the comma. -/
theorem enumEntry_run (hE : EnumeratorToks e.mem us) (hf : ∀ t ∈ fs, ¬ Code t) (ht : EntryEnd t) (h : Here e s (us ++ fs ++ t :: more) rest) :
    ∃ f tl, us = f :: tl ∧ f.type = .Identifier ∧ enumEntry e s = enumEnd f.start e (s.adv (us.length + fs.length)) := by
  cases hE with
  | @plain n name hn =>
    refine ⟨n, [], rfl, hn.1.type, ?_⟩
    have h0 : Here e s (n :: (fs ++ t :: more)) rest := by simpa using h
    have he := h0.eat
    rw [hn.1.type] at he
    unfold enumEntry
    refine bind_eq (h0.cur hn.fmt) ?_
    refine bind_eq he ?_
    refine bind_eq (Here.curs hf ht.fmt h0.tail) ?_
    have ht1 : t.type ≠ .Operator := by rcases ht.type with h | h <;> rw [h] <;> decide
    rw [iteP, if_neg ht1]
    refine bind_eq (pureP _ _ _) ?_
    simp only [Bool.false_eq_true, if_false]
    have e1 : (s.adv 1).adv fs.length = s.adv ([n].length + fs.length) := by
      unfold St.adv
      simp
      omega
    rw [e1]
    rfl
  | @value n name q vs hn hq hv =>
    refine ⟨n, q :: vs, rfl, hn.1.type, ?_⟩
    have h0 : Here e s (n :: q :: (vs ++ fs ++ t :: more)) rest := by simpa using h
    have he := h0.eat
    rw [hn.1.type] at he
    have hqe := h0.tail.eat
    rw [hq.type] at hqe
    unfold enumEntry
    refine bind_eq (h0.cur hn.fmt) ?_
    refine bind_eq he ?_
    refine bind_eq (h0.tail.cur (isFmt_of_type hq.type (by decide) (by decide))) ?_
    rw [iteP, if_pos hq.type]
    refine bind_eq (hq.chr (i := 0) (b := 61) rfl) ?_
    refine bind_eq (pureP _ _ _) ?_
    simp only [decide_true, if_true]
    refine bind_eq hqe ?_
    refine bind_eq (enumValue_run hv hf ht h0.tail.tail) ?_
    have e1 : ((s.adv 1).adv 1).adv (vs.length + fs.length) = s.adv ((n :: q :: vs).length + fs.length) := by
      unfold St.adv
      simp
      omega
    rw [e1]
    rfl

/-- A text as a new code. -/
theorem text_gives {f : P Nat} {m : Nat} (hn : 0 < s.heap.next) (h : f e s = .ok (s.heap.next, ⟨s.idx + m, grown s.heap (textNode y), s.scope⟩)) : Gives f e s m y := by
  refine ⟨_, _, h, agree_kept (Nat.succ_pos _) (Nat.le_refl _) (kept_grown _ _), Nat.le_refl _, rfl, ?_, ?_⟩
  · unfold Single
    simp [grown, isBodyType, textNode]
  · intro E par f k h1 h2 h3 _ _
    have := C48_text (e := E) (p := s.heap.next) (n := E.h.cell s.heap.next) (.inl ⟨h2, rfl, by rw [h3]; simp [grown, textNode]⟩)
    rw [h3] at this
    simpa [grown, textNode] using this

theorem enumMember_entry (h : Here e s (t :: more) rest) (ht : t.type = .Identifier) : enumMember e s = enumEntry e s := by
  unfold enumMember
  refine bind_eq h.curN ?_
  simp only [ht]
  rfl

/-- What a turn of the loop over enumerators does. -/
def enumItem (b : Nat) : P Unit := do
  hash
  let m ← enumMember
  bodyAdd b m

theorem assocP {α β γ : Type} (f : P α) (g : α → P β) (h : β → P γ) : (f >>= g) >>= h = f >>= fun x => g x >>= h := by
  funext e s
  simp only [bindP]
  cases f e s <;> rfl

theorem enumItem_eq (b : Nat) : turn (enumItem b) = (fun (_ : Unit) => do
      let go ← if ← left then do pure ((← curN).type ≠ .BraceCurly_Close : Bool) else pure false
      if go then
        hash
        let m ← enumMember
        bodyAdd b m
        return (true, ())
      else return (false, ())) := by
  unfold turn enumItem
  simp only [assocP]

theorem enumItem_turn {ps : List Nat} {xs : List Bytes} {m : Nat} (hb : BodyHas .Enum_Body b s.heap ps xs) (h : Here e s (t :: more) rest)
    (ht : t.type ∉ [TokType.Preprocess_Hash, .BraceCurly_Close]) (hg : Gives enumMember e s m y) :
    ∃ h' q, turn (enumItem b) () e s = .ok ((true, ()), ⟨s.idx + m, h', s.scope⟩) ∧ BodyHas .Enum_Body b h' (ps ++ [q]) (xs ++ [y]) ∧ s.heap.next ≤ h'.next ∧ Agree 1 b s.heap h' := by
  simp only [List.mem_cons, List.not_mem_nil, or_false, not_or] at ht
  obtain ⟨p, h', r1, r2, r3, r4, r5, r6⟩ := hg
  obtain ⟨h'', q, w1, w2, w3, w4⟩ := hb.add (e := e) (sc := s.scope) (i := s.idx + m) r2 r3 (by omega) r5 (r6.within (by omega))
  refine ⟨h'', q, turn_go h ht.2 ?_, w2, by omega, w4⟩
  refine bind_run (hash_none h ht.1) ?_
  exact bind_run r1 w1

/-- What the loop over enumerators does with the tokens `ts`. -/
def EReads (e : Env) (rest ts : List Tok) (x : Bytes) : Prop :=
  ∀ (b : Nat) (s : St) (ps : List Nat) (xs : List Bytes) (z : Tok) (more : List Tok), BodyHas .Enum_Body b s.heap ps xs → z.type = .BraceCurly_Close → Here e s (ts ++ z :: more) rest →
    ∃ h' ps' ys k, k ≤ ts.length + 1 ∧ Turns (turn (enumItem b)) e k () s () ⟨s.idx + ts.length, h', s.scope⟩ ∧ BodyHas .Enum_Body b h' ps' (xs ++ ys) ∧ ys.flatten = x ∧
      s.heap.next ≤ h'.next ∧ Agree 1 b s.heap h'

theorem ereads_nil : EReads e rest [] [] := by
  intro b s ps xs z more hb hz h
  exact ⟨s.heap, ps, [], 1, Nat.le_refl _, .stop (turn_stop h hz), by rw [List.append_nil]; exact hb, rfl, Nat.le_refl _, fun q q1 q2 => ⟨⟨q1, by have := hb.body.valid.2; omega⟩, rfl⟩⟩

theorem ereads_cons (hus : us ≠ []) (hi : ∀ (s : St) (z : Tok) (more : List Tok), z.type = .BraceCurly_Close → 0 < s.heap.next → Here e s (us ++ (ts ++ z :: more)) rest →
      (∃ t tl, us = t :: tl ∧ t.type ∉ [TokType.Preprocess_Hash, .BraceCurly_Close]) ∧ Gives enumMember e s us.length y)
    (hr : EReads e rest ts x) : EReads e rest (us ++ ts) (y ++ x) := by
  intro b s ps xs z more hb hz h
  rw [List.append_assoc] at h
  obtain ⟨⟨t, tl, hus', ht⟩, hg⟩ := hi s z more hz hb.body.next h
  obtain ⟨h1, q, r1, r2, r3, r4⟩ := enumItem_turn (t := t) (more := tl ++ (ts ++ z :: more)) hb (by rw [hus'] at h; exact h) ht hg
  have hh : Here e ⟨s.idx + us.length, h1, s.scope⟩ (ts ++ z :: more) rest := (h.advN.heap _ _).at rfl
  obtain ⟨h2, ps2, ys2, k, w1, w2, w3, w4, w5, w6⟩ := hr b _ _ _ z more r2 hz hh
  have w5 : h1.next ≤ h2.next := w5
  refine ⟨h2, ps2, [y] ++ ys2, k + 1, ?_, .go r1 ?_, by rw [← List.append_assoc]; exact w3, by rw [List.flatten_append, w4]; simp, by omega, r4.trans w6⟩
  · have := List.length_pos_iff.2 hus
    rw [List.length_append]
    omega
  · rw [List.length_append, ← Nat.add_assoc]
    exact w2

/-- The enumerators. -/
theorem enum_reads (hE : EnumToks e.mem x ts) : EReads e rest ts x := by
  induction hE with
  | nil => exact ereads_nil
  | @newline t fl y x ts ht hy _ ih =>
    refine ereads_cons (us := [t]) (by simp) ?_ ih
    intro s z more hz hn h
    refine ⟨⟨t, [], rfl, by rw [ht.type]; decide⟩, text_gives hn ?_⟩
    have h' : Here e s (t :: (ts ++ z :: more)) rest := h
    unfold enumMember
    refine bind_run h'.curN ?_
    simp only [ht.type]
    refine bind_run (?_ : untyped (.of t) e s = .ok (s.heap.next, ⟨s.idx, grown s.heap (textNode y), s.scope⟩)) ?_
    · have := untyped_run (e := e) (s := s) ht.text hy hn
      rw [← ht.len] at this
      exact this
    · have := (h'.heap (grown s.heap (textNode y)) s.scope).eat
      rw [ht.type] at this
      exact bind_run this rfl
  | @comment t fl y x ts ht _ ih =>
    refine ereads_cons (us := [t]) (by simp) ?_ ih
    intro s z more hz hn h
    refine ⟨⟨t, [], rfl, by rw [ht.type]; decide⟩, ?_⟩
    have h' : Here e s (t :: (ts ++ z :: more)) rest := h
    obtain ⟨p, g, r1, r2⟩ := comment_gives ht hn h'
    refine ⟨p, g, ?_, r2⟩
    unfold enumMember
    refine bind_run h'.curN ?_
    simp only [ht.type]
    exact r1
  | @entry us fs k y x ts hU hf hk hx hy _ ih =>
    have e1 : us ++ fs ++ k :: ts = (us ++ fs ++ [k]) ++ ts := by simp
    rw [e1]
    refine ereads_cons (us := us ++ fs ++ [k]) (by simp) ?_ ih
    intro s z more hz hn h
    have h1 : Here e s (us ++ fs ++ k :: (ts ++ z :: more)) rest := by simpa using h
    obtain ⟨f, tl, g1, g2, g3⟩ := enumEntry_run hU hf ⟨.inl hk⟩ h1
    subst g1
    have h2 : Here e s (f :: (tl ++ fs) ++ k :: (ts ++ z :: more)) rest := by simpa using h
    refine ⟨⟨f, tl ++ fs ++ [k], rfl, by rw [g2]; decide⟩, text_gives hn ?_⟩
    rw [enumMember_entry (t := f) (by simpa using h2) g2, g3]
    have := enumEnd_comma hk (tl := tl ++ fs) (by simpa using hx) hy hn h2
    rw [List.length_append] at this
    have e2 : (f :: tl).length + fs.length = tl.length + fs.length + 1 := by simp; omega
    have e3 : (f :: tl ++ fs ++ [k]).length = tl.length + fs.length + 2 := by simp; omega
    rw [e2, e3]
    exact this
  | @last us fs y hU hf hx hy =>
    have := ereads_cons (e := e) (rest := rest) (us := us ++ fs) (ts := []) (y := y) (x := []) ?_ ?_ ereads_nil
    · simpa using this
    · cases hU <;> simp
    · intro s z more hz hn h
      have h1 : Here e s (us ++ fs ++ z :: more) rest := by simpa using h
      obtain ⟨f, tl, g1, g2, g3⟩ := enumEntry_run hU hf ⟨.inr hz⟩ h1
      subst g1
      have h2 : Here e s (f :: (tl ++ fs) ++ z :: more) rest := by simpa using h
      refine ⟨⟨f, tl ++ fs, rfl, by rw [g2]; decide⟩, text_gives hn ?_⟩
      rw [enumMember_entry (t := f) (by simpa using h2) g2, g3]
      have := enumEnd_last hz (tl := tl ++ fs) (by simpa using hx) hy hn h2
      rw [List.length_append] at this
      have e2 : (f :: tl).length + fs.length = tl.length + fs.length + 1 := by simp; omega
      have e3 : (f :: tl ++ fs).length = tl.length + fs.length + 1 := by simp
      rw [e2, e3]
      exact this

theorem enumBody_run {o z : Tok} {inner : List Tok} (ho : o.type = .BraceCurly_Open) (hE : EnumToks e.mem y inner) (hz : z.type = .BraceCurly_Close) (hn : 0 < s.heap.next)
    (h : Here e s (o :: inner ++ z :: more) rest) :
    ∃ h' ps ys, enumBody e s = .ok (s.heap.next, ⟨s.idx + (inner.length + 2), h', s.scope⟩) ∧ BodyHas .Enum_Body s.heap.next h' ps ys ∧ ys.flatten = y ∧
      s.heap.next < h'.next ∧ Agree 1 s.heap.next s.heap h' := by
  have hlen := h.length_le
  have h0 : Here e s (o :: (inner ++ z :: more)) rest := by simpa using h
  have hb := bodyHas_new (ty := .Enum_Body) hn
  obtain ⟨h1, hh1⟩ : ∃ h1, h1 = grown s.heap { type := .Enum_Body } := ⟨_, rfl⟩
  have h1n : h1.next = s.heap.next + 1 := by rw [hh1]; rfl
  rw [← hh1] at hb
  have g1 : Here e ⟨s.idx + 1, h1, s.scope⟩ (inner ++ z :: more) rest := (h0.tail.heap h1 s.scope).at rfl
  obtain ⟨h2, ps, ys, k, w1, w2, w3, w4, w5, w6⟩ := enum_reads hE s.heap.next _ [] [] z more hb hz g1
  have w5 : h1.next ≤ h2.next := w5
  have g2 : Here e ⟨s.idx + 1 + inner.length, h2, s.scope⟩ (z :: more) rest := (g1.advN.heap h2 s.scope).at rfl
  have heo := (h0.heap h1 s.scope).eat
  rw [ho] at heo
  have hez := g2.eat
  rw [hz] at hez
  have hag : Agree 1 s.heap.next s.heap h1 := by rw [hh1]; exact agree_kept (Nat.succ_pos _) (Nat.le_refl _) (kept_grown _ _)
  refine ⟨h2, ps, ys, ?_, by simpa using w3, w4, by omega, hag.trans w6⟩
  unfold enumBody
  refine bind_run (h0.cur (isFmt_of_type ho (by decide) (by decide))) ?_
  simp only [ho, if_true]
  refine bind_run (make_run hn _) ?_
  rw [← hh1]
  refine bind_run heo ?_
  rw [enumItem_eq] at w2
  refine bind_run (w2.loop (by simp at hlen; omega)) ?_
  refine bind_run hez ?_
  rw [pureP]
  simp [St.adv]
  omega

/-- What `parseEnum` does behind the head. -/
def enumRest (inplace cls : Bool) (attrs : Nat) (name : Bytes) (ty mac : Nat) : P Nat := do
  let body ← enumBody
  let cmt ← if inplace then pure 0 else endStmt
  make {
    type := if body ≠ 0 then (if cls then .Enum_Class else .Enum) else if cls then .Enum_Class_Fwd else .Enum_Fwd, name := name,
    body := body, attributes := attrs, params := mac, typ := ty, inlineCmt := cmt }

/-- What the head leaves behind. -/
structure HeadHas (a b : Nat) (h : Heap) (cls : Bool) (name : Bytes) (ty : Nat) (hx : Bytes) : Prop where
  named : name ≠ []
  type : (ty = 0 ∧ cls = false ∧ hx = b!"enum " ++ name) ∨
    ∃ tname tspecs, IsType a b h ty tname tspecs 0 ∧ tname ≠ [] ∧ hx = (if cls then b!"enum class " else b!"enum ") ++ name ++ b!" : " ++ typeText tname tspecs

/-- What may come behind the head. -/
structure HeadStop (c : Bytes) (t : Tok) : Prop where
  ends : Ends c t
  colon : t.type ≠ .Assign_Classifer
  mac : t.type ≠ .Preprocess_Macro_Expr

theorem headStop_of {c : Bytes} (h : TokIs c t .BraceCurly_Open 0 x ∨ TokIs c t .Statement_End 512 x) : HeadStop c t := by
  rcases h with h | h
  · exact ⟨⟨isFmt_of_type h.type (by decide) (by decide), by rw [h.has]; rfl, by rw [h.type]; decide, by rw [h.type]; decide, by rw [h.type]; rfl,
      by rw [h.type]; decide, fun hh => by rw [h.type] at hh; cases hh⟩, by rw [h.type]; decide, by rw [h.type]; decide⟩
  · exact ⟨⟨isFmt_of_type h.type (by decide) (by decide), by rw [h.has]; rfl, by rw [h.type]; decide, by rw [h.type]; decide, by rw [h.type]; rfl,
      by rw [h.type]; decide, fun hh => by rw [h.type] at hh; cases hh⟩, by rw [h.type]; decide, by rw [h.type]; decide⟩

theorem IdTok.noAttr {c : Bytes} (h : IdTok c t x) : has t Lex.fAttribute = false := by
  unfold has
  rw [h.1.flags]
  rfl

/-- `parseEnum`, in its scope. -/
def enumInner (inplace : Bool) : P Nat := do
  eat .Decl_Enum
  let cls ← do
    if (← cur).type = .Decl_Class then
      eat .Decl_Class
      pure true
    else pure false
  let attrs ← attributes
  let name ← do
    if ← check .Identifier then
      let b ← bytes (.of (← cur))
      eat .Identifier
      pure b
    else pure []
  let (ty, mac) ← enumUnderlying
  enumRest inplace cls attrs name ty mac

theorem parseEnum_eq (inplace : Bool) : parseEnum inplace = inScope b!"parser_parse_enum" (enumInner inplace) := rfl

/-- The underlying type. -/
theorem underlying_run {q : Tok} {tname : Bytes} {tspecs : List Specifier} (hq : q.type = .Assign_Classifer) (hT : TypeToks e.mem tspecs tname ts) (hu : HeadStop e.mem u)
    (hn : 0 < s.heap.next) (h : Here e s (q :: (ts ++ u :: more)) rest) :
    ∃ h', enumUnderlying e s = .ok ((s.heap.next, 0), ⟨s.idx + (ts.length + 1), h', s.scope⟩) ∧ Kept s.heap h' ∧ s.heap.next < h'.next ∧
      IsType s.heap.next h'.next h' s.heap.next tname tspecs 0 := by
  have heq := h.eat
  rw [hq] at heq
  obtain ⟨h', r1, r2⟩ := type_run (s := s.adv 1) hT h.tail hu.ends hn
  refine ⟨h', ?_, r2⟩
  unfold enumUnderlying
  refine bind_run (h.cur (isFmt_of_type hq (by decide) (by decide))) ?_
  simp only [hq, if_true]
  refine bind_run heq ?_
  refine bind_run r1 ?_
  rw [pureP]
  simp [St.adv]
  omega

theorem underlying_none (hu : HeadStop e.mem u) (h : Here e s (u :: more) rest) : enumUnderlying e s = .ok ((0, 0), s) := by
  unfold enumUnderlying
  refine bind_run (h.cur hu.ends.fmt) ?_
  simp only [hu.colon, hu.mac, if_false]
  rfl

theorem enumHead_run {hx : Bytes} {hs : List Tok} (hH : EnumHead e.mem hx hs) (hu : HeadStop e.mem u) (hn : 0 < s.heap.next) (h : Here e s (hs ++ u :: more) rest) :
    ∃ cls name ty h1, enumInner false e s = enumRest false cls 0 name ty 0 e ⟨s.idx + hs.length, h1, s.scope⟩ ∧ Kept s.heap h1 ∧ s.heap.next ≤ h1.next ∧
      HeadHas s.heap.next h1.next h1 cls name ty hx := by
  cases hH with
  | @plain t n name ht hi =>
    have g0 : Here e s (t :: n :: u :: more) rest := h
    have g1 := g0.tail
    have g2 := g1.tail
    have e0 := g0.eat
    rw [ht] at e0
    have e1 := g1.eat
    rw [hi.1.type] at e1
    refine ⟨false, name, 0, s.heap, ?_, .refl _, Nat.le_refl _, hi.2, .inl ⟨rfl, rfl, rfl⟩⟩
    unfold enumInner
    refine bind_eq e0 ?_
    refine bind_eq (g1.cur hi.fmt) ?_
    simp only [hi.1.type, reduceCtorEq, if_false]
    refine bind_eq (pureP _ _ _) ?_
    refine bind_eq (g1.attributes hi.fmt hi.noAttr) ?_
    refine bind_eq (g1.check hi.fmt _) ?_
    simp only [hi.1.type, decide_true, if_true]
    refine bind_eq (g1.cur hi.fmt) ?_
    refine bind_eq hi.1.bytesP ?_
    refine bind_eq e1 ?_
    refine bind_eq (pureP _ _ _) ?_
    refine bind_eq (underlying_none hu g2) ?_
    rfl
  | @typed t n name q tspecs tname ts ht hi hq hT =>
    have g0 : Here e s (t :: n :: q :: (ts ++ u :: more)) rest := h
    have g1 := g0.tail
    have g2 := g1.tail
    have e0 := g0.eat
    rw [ht] at e0
    have e1 := g1.eat
    rw [hi.1.type] at e1
    obtain ⟨h1, r1, r2, r3, r4⟩ := underlying_run (s := (s.adv 1).adv 1) hq hT hu hn g2
    obtain ⟨-, -, -, -, -, hne⟩ := hT.first
    have r3 : s.heap.next < h1.next := r3
    refine ⟨false, name, s.heap.next, h1, ?_, r2, by omega, hi.2, .inr ⟨tname, tspecs, r4, hne, rfl⟩⟩
    unfold enumInner
    refine bind_eq e0 ?_
    refine bind_eq (g1.cur hi.fmt) ?_
    simp only [hi.1.type, reduceCtorEq, if_false]
    refine bind_eq (pureP _ _ _) ?_
    refine bind_eq (g1.attributes hi.fmt hi.noAttr) ?_
    refine bind_eq (g1.check hi.fmt _) ?_
    simp only [hi.1.type, decide_true, if_true]
    refine bind_eq (g1.cur hi.fmt) ?_
    refine bind_eq hi.1.bytesP ?_
    refine bind_eq e1 ?_
    refine bind_eq (pureP _ _ _) ?_
    refine bind_eq r1 ?_
    have e2 : s.idx + (t :: n :: q :: ts).length = ((s.adv 1).adv 1).idx + (ts.length + 1) := by simp [St.adv]; omega
    rw [e2]
    rfl
  | @cls t v n name q tspecs tname ts ht hv hi hq hT =>
    have g0 : Here e s (t :: v :: n :: q :: (ts ++ u :: more)) rest := h
    have g1 := g0.tail
    have g2 := g1.tail
    have g3 := g2.tail
    have e0 := g0.eat
    rw [ht] at e0
    have e1 := g1.eat
    rw [hv] at e1
    have e2 := g2.eat
    rw [hi.1.type] at e2
    obtain ⟨h1, r1, r2, r3, r4⟩ := underlying_run (s := ((s.adv 1).adv 1).adv 1) hq hT hu hn g3
    obtain ⟨-, -, -, -, -, hne⟩ := hT.first
    have r3 : s.heap.next < h1.next := r3
    refine ⟨true, name, s.heap.next, h1, ?_, r2, by omega, hi.2, .inr ⟨tname, tspecs, r4, hne, rfl⟩⟩
    unfold enumInner
    refine bind_eq e0 ?_
    refine bind_eq (g1.cur (isFmt_of_type hv (by decide) (by decide))) ?_
    simp only [hv, if_true]
    refine bind_eq e1 ?_
    refine bind_eq (pureP _ _ _) ?_
    refine bind_eq (g2.attributes hi.fmt hi.noAttr) ?_
    refine bind_eq (g2.check hi.fmt _) ?_
    simp only [hi.1.type, decide_true, if_true]
    refine bind_eq (g2.cur hi.fmt) ?_
    refine bind_eq hi.1.bytesP ?_
    refine bind_eq e2 ?_
    refine bind_eq (pureP _ _ _) ?_
    refine bind_eq r1 ?_
    have e3 : s.idx + (t :: v :: n :: q :: ts).length = (((s.adv 1).adv 1).adv 1).idx + (ts.length + 1) := by simp [St.adv]; omega
    rw [e3]
    rfl

theorem neutral_end {E : Ser.Env} {par : Nat} (hx : Neutral E par) : (if par ≠ 0 ∧ ((E.h.cell par).type = .Typedef ∨ (E.h.cell par).type = .Variable) then [] else x) = x := by
  rw [if_neg]
  rintro ⟨g1, g2⟩
  rcases hx with hx | ⟨-, g3, g4⟩
  · exact g1 hx
  · exact g2.elim g3 g4

theorem enumFwd_says {E : Ser.Env} {h : Heap} {p ty par f q : Nat} {cls : Bool} {hx : Bytes} (h0 : 0 < a) (ha : Agree a b h E.h) (hv : E.h.Valid p)
    (hp : E.h.cell p = { type := if cls then .Enum_Class_Fwd else .Enum_Fwd, name := name, typ := ty, parent := par, front := f, back := q })
    (hx' : Neutral E par) (hH : HeadHas a b h cls name ty hx) : Says E .code p (hx ++ b!";\n") := by
  intro hf
  have h3 : exportText (E.h.cell p) = [] := by rw [hp]; rfl
  have h6 : attrText E (E.h.cell p) = [] := by rw [hp]; rfl
  have hnm : nameText E p = name := by rw [nameText_of (by rw [hp]; exact hH.named), hp]
  have h7 : ∀ x, endText E (E.h.cell p) x = x := by
    intro x
    unfold endText
    rw [hp]
    exact neutral_end hx'
  have h8 : cmtText E (E.h.cell p) b!";  " b!"" b!";\n" = b!";\n" := by rw [hp]; rfl
  rcases hH.type with ⟨t1, t2, t3⟩ | ⟨tname, tspecs, t1, t2, t3⟩
  · subst t1 t2 t3
    refine (C45_enum_fwd (e := E) (n := E.h.cell p) (ut := []) (mt := []) ⟨hv, rfl, by rw [hp]; rfl⟩ (by rw [hp]; exact fun hh => absurd rfl hh) (by rw [hp]; exact fun hh => absurd rfl hh) (by rw [hp]; exact Neutral.slot hx')
      (fun hh => absurd (by rw [hp]) hh) (fun hh => absurd (by rw [hp]) hh)).print' ?_ hf
    have h9 : underText (E.h.cell p) [] [] = [] := by rw [hp]; rfl
    simp [h3, h6, hnm, h7, h8, h9]
  · have hty : Says E .typename ty (typeText tname tspecs) := type_says (t1.agree ha) ha.live h0 t2
    have hne : ty ≠ 0 := by have := t1.lo; omega
    subst t3
    have hft : Fits (typeText tname tspecs) := (Fits.append (Fits.append hf).1).2
    cases cls with
    | false =>
      refine (C45_enum_fwd (e := E) (n := E.h.cell p) (ut := typeText tname tspecs) (mt := []) ⟨hv, rfl, by rw [hp]; rfl⟩ (by rw [hp]; exact fun hh => absurd rfl hh) (by rw [hp]; exact fun hh => absurd rfl hh)
        (by rw [hp]; exact Neutral.slot hx') (fun _ => by rw [hp]; exact hty hft) (fun hh => absurd (by rw [hp]) hh)).print' ?_ hf
      have h9 : underText (E.h.cell p) (typeText tname tspecs) [] = b!" : " ++ typeText tname tspecs := by rw [hp]; unfold underText; rw [if_pos hne]
      simp [h3, h6, hnm, h7, h8, h9]
    | true =>
      refine (C45_enum_class_fwd (e := E) (n := E.h.cell p) (ut := typeText tname tspecs) ⟨hv, rfl, by rw [hp]; rfl⟩ (by rw [hp]; exact fun hh => absurd rfl hh) (by rw [hp]; exact fun hh => absurd rfl hh)
        (by rw [hp]; exact Neutral.slot hx') (by rw [hp]; exact hty hft)).print' ?_ hf
      simp [h3, h6, hnm, h7, h8]

theorem enumDef_says {E : Ser.Env} {h : Heap} {p ty par f q body : Nat} {cls : Bool} {hx : Bytes} (h0 : 0 < a) (ha : Agree a b h E.h) (hv : E.h.Valid p)
    (hp : E.h.cell p = { type := if cls then .Enum_Class else .Enum, name := name, typ := ty, body := body, parent := par, front := f, back := q })
    (hx' : Neutral E par) (hH : HeadHas a b h cls name ty hx) (hb : Says E .body body y) : Says E .code p (hx ++ b!"\n{\n" ++ y ++ b!"\n};\n") := by
  intro hf
  have h3 : exportText (E.h.cell p) = [] := by rw [hp]; rfl
  have h6 : attrText E (E.h.cell p) = [] := by rw [hp]; rfl
  have hnm : nameText E p = name := by rw [nameText_of (by rw [hp]; exact hH.named), hp]
  have hfy : Fits y := (Fits.append (Fits.append hf).1).2
  have h7 : ∀ x, endText E (E.h.cell p) x = x := by
    intro x
    unfold endText
    rw [hp]
    exact neutral_end hx'
  rcases hH.type with ⟨t1, t2, t3⟩ | ⟨tname, tspecs, t1, t2, t3⟩
  · subst t1 t2 t3
    refine (C45_enum (e := E) (n := E.h.cell p) (t := y) (ut := []) (mt := []) ⟨hv, rfl, by rw [hp]; rfl⟩ (by rw [hp]; exact hb hfy) (by rw [hp]; exact fun hh => absurd rfl hh) (by rw [hp]; exact Neutral.slot hx')
      (fun hh => absurd (by rw [hp]) hh) (fun hh => absurd (by rw [hp]) hh)).print' ?_ hf
    have h9 : underText (E.h.cell p) [] [] = [] := by rw [hp]; rfl
    simp [h3, h6, hnm, h7, h9]
  · have hty : Says E .typename ty (typeText tname tspecs) := type_says (t1.agree ha) ha.live h0 t2
    have hne : ty ≠ 0 := by have := t1.lo; omega
    subst t3
    have hft : Fits (typeText tname tspecs) := (Fits.append (Fits.append (Fits.append (Fits.append hf).1).1).1).2
    cases cls with
    | false =>
      refine (C45_enum (e := E) (n := E.h.cell p) (t := y) (ut := typeText tname tspecs) (mt := []) ⟨hv, rfl, by rw [hp]; rfl⟩ (by rw [hp]; exact hb hfy) (by rw [hp]; exact fun hh => absurd rfl hh)
        (by rw [hp]; exact Neutral.slot hx') (fun _ => by rw [hp]; exact hty hft) (fun hh => absurd (by rw [hp]) hh)).print' ?_ hf
      have h9 : underText (E.h.cell p) (typeText tname tspecs) [] = b!" : " ++ typeText tname tspecs := by rw [hp]; unfold underText; rw [if_pos hne]
      simp [h3, h6, hnm, h7, h9]
    | true =>
      refine (C45_enum_class (e := E) (n := E.h.cell p) (t := y) (ut := typeText tname tspecs) ⟨hv, rfl, by rw [hp]; rfl⟩ (by rw [hp]; exact hb hfy) (by rw [hp]; exact fun hh => absurd rfl hh)
        (by rw [hp]; exact Neutral.slot hx') (fun _ => by rw [hp]; exact hty hft) (.inr (by rw [hp]; exact hne))).print' ?_ hf
      have h9 : optText (E.h.cell p).typ (b!" : " ++ typeText tname tspecs) = b!" : " ++ typeText tname tspecs := by rw [hp]; unfold optText; rw [if_neg hne]
      rw [h9]
      simp [h3, h6, hnm, h7]

theorem HeadHas.agree {h g : Heap} {ty : Nat} {cls : Bool} {hx : Bytes} (hH : HeadHas a b h cls name ty hx) (ha : Agree a b h g) : HeadHas a b g cls name ty hx :=
  ⟨hH.named, hH.type.imp id fun ⟨tname, tspecs, t1, t2⟩ => ⟨tname, tspecs, t1.agree ha, t2⟩⟩

theorem enum_gives (hD : EnumDecl e.mem x ts) (hq : ∀ u, ts.getLast? = some u → Quiet u (more ++ rest)) (hn : 0 < s.heap.next) (h : Here e s (ts ++ more) rest) :
    Gives (parseEnum false) e s ts.length x := by
  rw [parseEnum_eq]
  refine Gives.scope ?_
  obtain ⟨sc, hsc⟩ : ∃ sc, sc = b!"parser_parse_enum" :: s.scope := ⟨_, rfl⟩
  rw [← hsc]
  cases hD with
  | @forward hx hs u hH hu =>
    have g0 : Here e ⟨s.idx, s.heap, sc⟩ (hs ++ u :: more) rest := by simpa using h.heap s.heap sc
    obtain ⟨cls, name, ty, h1, r1, r2, r3, r4⟩ := enumHead_run hH (headStop_of (.inr hu)) (by exact hn) g0
    have r3 : s.heap.next ≤ h1.next := r3
    have g1 : Here e ⟨s.idx + hs.length, h1, sc⟩ (u :: more) rest := (g0.advN.heap h1 sc).at rfl
    obtain ⟨N, hN⟩ : ∃ N : Node, N = { type := if cls then .Enum_Class_Fwd else .Enum_Fwd, name := name, typ := ty } := ⟨_, rfl⟩
    refine ⟨h1.next, grown h1 N, ?_, ?_, r3, rfl, ?_, ?_⟩
    · rw [r1]
      unfold enumRest
      refine bind_run (a := 0) (s' := ⟨s.idx + hs.length, h1, sc⟩) ?_ ?_
      · unfold enumBody
        refine bind_run (g1.cur (isFmt_of_type hu.type (by decide) (by decide))) ?_
        simp only [hu.type, reduceCtorEq, if_false]
        rfl
      · simp only [Bool.false_eq_true, if_false]
        refine bind_run (endStmt_run hu (hq u (by rw [List.getLast?_append]; rfl)) g1) ?_
        simp only [ne_eq, not_true_eq_false, if_false]
        rw [make_run (by show 0 < h1.next; omega), ← hN]
        simp [St.adv]
        omega
    · exact (agree_kept (Nat.succ_pos _) (Nat.le_refl _) r2).trans ((agree_kept (Nat.succ_pos _) (Nat.le_refl _) (kept_grown h1 N)).mono (Nat.le_refl _) r3)
    · unfold Single
      rw [hN]
      cases cls <;> simp [grown, isBodyType]
    · intro E par f k a1 a2 a3 a4
      refine enumFwd_says (f := f) (q := k) (a := s.heap.next) (b := h1.next) (h := h1) (name := name) (ty := ty) (cls := cls) hn ?_ a2 ?_ a4 r4
      · exact (agree_kept hn (Nat.le_refl _) (kept_grown h1 N)).trans a1
      · rw [a3, hN]
        simp [grown]
  | @mk hx hs o y inner z u hH ho hE hz hu =>
    have g0 : Here e ⟨s.idx, s.heap, sc⟩ (hs ++ o :: (inner ++ z :: u :: more)) rest := by simpa using h.heap s.heap sc
    obtain ⟨cls, name, ty, h1, r1, r2, r3, r4⟩ := enumHead_run hH (headStop_of (.inl ho)) (by exact hn) g0
    have r3 : s.heap.next ≤ h1.next := r3
    have g1 : Here e ⟨s.idx + hs.length, h1, sc⟩ (o :: inner ++ z :: u :: more) rest := (g0.advN.heap h1 sc).at rfl
    obtain ⟨h2, ps, ys, w1, w2, w3, w4, w5⟩ := enumBody_run ho.type hE hz.type (by show 0 < h1.next; omega) g1
    have w4 : h1.next < h2.next := w4
    have g2 : Here e ⟨s.idx + hs.length + (inner.length + 2), h2, sc⟩ (u :: more) rest := by
      have := (Here.advN (ts := o :: inner ++ [z]) (more := u :: more) (by simpa using g1)).heap h2 sc
      exact this.at (by simp [St.adv])
    obtain ⟨N, hN⟩ : ∃ N : Node, N = { type := if cls then .Enum_Class else .Enum, name := name, typ := ty, body := h1.next } := ⟨_, rfl⟩
    have hh1 : h1.next ≠ 0 := by omega
    have ag : Agree s.heap.next h1.next h1 h2 := w5.mono (by omega) (Nat.le_refl _)
    have ag2 : Agree s.heap.next h2.next h2 (grown h2 N) := agree_kept (by omega) (Nat.le_refl _) (kept_grown h2 N)
    refine ⟨h2.next, grown h2 N, ?_, ?_, by show s.heap.next ≤ _; omega, rfl, ?_, ?_⟩
    · rw [r1]
      unfold enumRest
      refine bind_run w1 ?_
      simp only [Bool.false_eq_true, if_false]
      refine bind_run (endStmt_run hu (hq u (by rw [List.getLast?_append]; rfl)) g2) ?_
      rw [if_pos hh1, make_run (by show 0 < h2.next; omega), ← hN]
      simp [St.adv]
      omega
    · exact ((agree_kept (Nat.succ_pos _) (Nat.le_refl _) r2).trans (w5.mono (Nat.le_refl _) r3)).trans
        ((agree_kept (Nat.succ_pos _) (Nat.le_refl _) (kept_grown h2 N)).mono (Nat.le_refl _) (by show s.heap.next ≤ _; omega))
    · unfold Single
      rw [hN]
      cases cls <;> simp [grown, isBodyType]
    · intro E par f k a1 a2 a3 a4
      have hag : Agree s.heap.next h2.next h2 E.h := ag2.trans a1
      refine enumDef_says (f := f) (q := k) (a := s.heap.next) (b := h1.next) (h := h1) (name := name) (ty := ty) (cls := cls) (body := h1.next) hn (ag.trans (hag.mono (Nat.le_refl _) (by omega))) a2 ?_ a4 r4 ?_
      · rw [a3, hN]
        simp [grown]
      · have hst := w2.stands rfl
        rw [w3] at hst
        exact hst.says E (hag.mono r3 (Nat.le_refl _))

theorem EnumHead.first {c : Bytes} {hx : Bytes} {hs : List Tok} (hH : EnumHead c hx hs) : ∃ t tl, hs = t :: tl ∧ t.type = .Decl_Enum := by
  cases hH with
  | plain h => exact ⟨_, _, rfl, h⟩
  | typed h => exact ⟨_, _, rfl, h⟩
  | cls h => exact ⟨_, _, rfl, h⟩

theorem EnumDecl.last {c : Bytes} (hD : EnumDecl c x ts) : ∃ l u, ts = l ++ [u] ∧ u.type = .Statement_End := by
  cases hD with
  | forward h1 h2 => exact ⟨_, _, rfl, h2.type⟩
  | @mk hx hs o y inner z u h1 h2 h3 h4 h5 => exact ⟨hs ++ o :: inner ++ [z], u, by simp, h5.type⟩

theorem SpecToks.types {c : Bytes} {l : List Specifier} (h : SpecToks c l ts) : ∀ t ∈ ts, t.type ∉ [TokType.BraceCurly_Open, .BraceCurly_Close, .Statement_End] := by
  induction h with
  | nil => intro t ht; cases ht
  | @cons x l t ts hx _ ih =>
    intro u hu
    rcases List.mem_cons.1 hu with rfl | hu
    · rw [hx.type]; cases x <;> decide
    · exact ih u hu

theorem TypeToks.types {c : Bytes} {l : List Specifier} (h : TypeToks c l x ts) : ∀ t ∈ ts, t.type ∉ [TokType.BraceCurly_Open, .BraceCurly_Close, .Statement_End] := by
  obtain ⟨h1, -, h2, -, h3, -, -⟩ := h
  intro t ht
  rcases List.mem_append.1 ht with ht | ht
  · rcases List.mem_append.1 ht with ht | ht
    · exact h1.types t ht
    · cases h2 with
      | ident hq => rcases hq.types t ht with h | h <;> rw [h] <;> decide
      | native hn =>
        have := hn t ht
        revert this
        generalize t.type = y
        cases y <;> decide
  · exact h3.types t ht

theorem EnumHead.types {c : Bytes} {hx : Bytes} {hs : List Tok} (hH : EnumHead c hx hs) : ∀ t ∈ hs, t.type ∉ [TokType.BraceCurly_Open, .BraceCurly_Close, .Statement_End] := by
  intro t ht
  cases hH with
  | plain h1 h2 =>
    simp only [List.mem_cons, List.not_mem_nil, or_false] at ht
    rcases ht with rfl | rfl
    · rw [h1]; decide
    · rw [h2.1.type]; decide
  | typed h1 h2 h3 h4 =>
    simp only [List.mem_cons] at ht
    rcases ht with rfl | rfl | rfl | ht
    · rw [h1]; decide
    · rw [h2.1.type]; decide
    · rw [h3]; decide
    · exact h4.types t ht
  | cls h1 h2 h3 h4 h5 =>
    simp only [List.mem_cons] at ht
    rcases ht with rfl | rfl | rfl | rfl | ht
    · rw [h1]; decide
    · rw [h2]; decide
    · rw [h3.1.type]; decide
    · rw [h4]; decide
    · exact h5.types t ht

end Verif.Parse
