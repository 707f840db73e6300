import Verif.Proof.ReadMember
import Verif.Props.DefBody
/-!
# Running the parser on the members of a body
-/
namespace Verif.Parse
open Verif.Lex (Tok)
open Verif.Ast P
open Verif.Ser hiding Env boundsText isNext

variable {e : Env} {s : St} {t u : Tok} {ts vs more rest : List Tok} {x y : Bytes} {a b : Nat} {ty : CodeType}

/-- As `Agree`, but for the node `p`. -/
def AgreeBut (a b p : Nat) (h g : Heap) : Prop := ∀ q, a ≤ q → q < b → q ≠ p → g.Valid q ∧ g.cell q = h.cell q

/-- As `Shown`, for a node that need not be the last one: it prints as `t`, as long as the nodes from `a` to `b` are left as they are. -/
def ShownIn (a b p : Nat) (h : Heap) (t : Bytes) : Prop :=
  ∀ (E : Ser.Env) (x f k : Nat), AgreeBut a b p h E.h → E.h.Valid p → E.h.cell p = { h.cell p with parent := x, front := f, back := k } → Neutral E x →
    Says E .code p t

theorem Shown.within {h : Heap} {p : Nat} (hs : Shown a p h x) (hb : p < b) : ShownIn a b p h x := fun E y f k h1 h2 h3 h4 =>
  hs E y f k (fun q q1 q2 => h1 q q1 (by omega) (by omega)) h2 h3 h4

/-- As `Gives`, but the node need not be the last one. -/
def GivesIn (f : P Nat) (e : Env) (s : St) (n : Nat) (t : Bytes) : Prop :=
  ∃ p h', f e s = .ok (p, ⟨s.idx + n, h', s.scope⟩) ∧ Agree 1 s.heap.next s.heap h' ∧ s.heap.next ≤ p ∧ p < h'.next ∧ Single h' p ∧
    ShownIn s.heap.next h'.next p h' t

theorem Gives.within {f : P Nat} {n : Nat} (h : Gives f e s n x) : GivesIn f e s n x := by
  obtain ⟨p, h', r1, r2, r3, r4, r5, r6⟩ := h
  exact ⟨p, h', r1, r2, r3, by omega, r5, r6.within (by omega)⟩

/-- The entry `p` of the body `b`, made of the nodes from `lo` to `hi`, prints as `t`. -/
structure Entry (lo hi b : Nat) (h : Heap) (p : Nat) (t : Bytes) : Prop where
  lo_le : lo ≤ p
  lt_hi : p < hi
  hi_le : hi ≤ h.next
  shown : ∃ h0 f k, ShownIn lo hi p h0 t ∧ AgreeBut lo hi p h0 h ∧ h.cell p = { h0.cell p with parent := b, front := f, back := k }

/-- The entries `ps` of the body `b` print as `xs`, and all their nodes come before `m`. -/
inductive Entries (b : Nat) (h : Heap) : Nat → List Nat → List Bytes → Prop where
  | nil : Entries b h (b + 1) [] []
  | snoc {m lo hi p t ps xs} : Entries b h m ps xs → m ≤ lo → Entry lo hi b h p t → Entries b h hi (ps ++ [p]) (xs ++ [t])

structure BodyHas (ty : CodeType) (b : Nat) (h : Heap) (ps : List Nat) (xs : List Bytes) : Prop where
  body : IsBody h b ps
  type : (h.cell b).type = ty
  entries : ∃ m, m ≤ h.next ∧ Entries b h m ps xs

/-- An entry stays what it is, if only its place in the list changes. -/
theorem Entry.keep {h g : Heap} {lo hi p : Nat} (he : Entry lo hi b h p x) (hn : h.next ≤ g.next) (hc : ∀ q, lo ≤ q → q < hi → q ≠ p → g.cell q = h.cell q)
    (hp : ∃ k, g.cell p = { h.cell p with back := k }) : Entry lo hi b g p x := by
  obtain ⟨h1, h2, h3, h0, f, k, h4, h5, h6⟩ := he
  obtain ⟨k', hp⟩ := hp
  refine ⟨h1, h2, by omega, h0, f, k', h4, fun q q1 q2 q3 => ?_, by rw [hp, h6]⟩
  obtain ⟨r1, r2⟩ := h5 q q1 q2 q3
  exact ⟨⟨r1.1, by have := r1.2; omega⟩, by rw [hc q q1 q2 q3, r2]⟩

theorem Entries.lower {h : Heap} {m : Nat} {ps : List Nat} {xs : List Bytes} (he : Entries b h m ps xs) : b < m ∧ ∀ p ∈ ps, b < p ∧ p < m := by
  induction he with
  | nil => exact ⟨by omega, fun p hp => by cases hp⟩
  | snoc h1 h2 h3 ih =>
    have g1 := h3.lo_le
    have g2 := h3.lt_hi
    refine ⟨by omega, fun p hp => ?_⟩
    rcases List.mem_append.1 hp with hp | hp
    · have := ih.2 p hp; omega
    · simp at hp; omega

theorem Entries.keep {h g : Heap} {m : Nat} {ps : List Nat} {xs : List Bytes} (he : Entries b h m ps xs) (hn : h.next ≤ g.next)
    (hq : ∀ q, b < q → q < m → q ∉ ps → g.cell q = h.cell q) (hp : ∀ p ∈ ps, ∃ k, g.cell p = { h.cell p with back := k }) : Entries b g m ps xs := by
  induction he with
  | nil => exact .nil
  | @snoc m lo hi p t ps xs h1 h2 h3 ih =>
    have g1 := h3.lo_le
    have g2 := h3.lt_hi
    have g3 := h1.lower
    refine .snoc (ih (fun q q1 q2 q3 => hq q q1 (by omega) ?_) fun q hq => hp q (by simp [hq])) h2 (h3.keep hn (fun q q1 q2 q3 => hq q (by omega) q2 ?_) (hp p (by simp)))
    · simp [q3]; omega
    · have : q ∉ ps := fun hh => by have := g3.2 q hh; omega
      simp [this, q3]

theorem BodyHas.mem {h : Heap} {ps : List Nat} {xs : List Bytes} (hb : BodyHas ty b h ps xs) : ∀ p ∈ ps, b < p ∧ p < h.next := by
  obtain ⟨-, -, m, h1, h2⟩ := hb
  intro p hp
  have := h2.lower.2 p hp
  omega

theorem BodyHas.keep {h g : Heap} {ps : List Nat} {xs : List Bytes} (hb : BodyHas ty b h ps xs) (hg : Agree b h.next h g) (hn : h.next ≤ g.next) : BodyHas ty b g ps xs := by
  have hm := hb.mem
  obtain ⟨h1, h2, m, h3, h4⟩ := hb
  refine ⟨IsBody.agree h1 (fun q hq => ?_) (by have := h1.next; omega), ?_, m, by omega, h4.keep hn (fun q q1 q2 _ => (hg q (by omega) (by omega)).2) fun p hp => ⟨(h.cell p).back, ?_⟩⟩
  · rcases hq with rfl | hq
    · exact hg q (Nat.le_refl _) h1.valid.2
    · have := hm q hq
      exact hg q (by omega) this.2
  · rw [(hg b (Nat.le_refl _) h1.valid.2).2, h2]
  · rw [(hg p (by have := (hm p hp).1; omega) (hm p hp).2).2]

/-- An empty body. -/
theorem bodyHas_new {h : Heap} (hn : 0 < h.next) : BodyHas ty h.next (grown h { type := ty }) [] [] :=
  ⟨isBody_new hn _, by simp [grown], h.next + 1, Nat.le_refl _, .nil⟩

/-- A code is appended. -/
theorem BodyHas.append {h g : Heap} {ps : List Nat} {xs : List Bytes} {o : Nat} (hb : BodyHas ty b h ps xs) (ha : Agree 1 h.next h g) (hgn : h.next ≤ g.next) (vo : g.Valid o) (hob : o ≠ b)
    (ht : isBodyType (g.cell o).type = false) (hlo : (g.cell o).parent = 0 → h.next ≤ o)
    (hs : ∃ h0, ShownIn h.next (if (g.cell o).parent = 0 then g.next else g.next + 1) (if (g.cell o).parent = 0 then o else g.next) h0 x ∧
      AgreeBut h.next g.next (if (g.cell o).parent = 0 then o else g.next) h0 g ∧ h0.cell (if (g.cell o).parent = 0 then o else g.next) = { g.cell o with parent := 0 })
    {sc : List Bytes} {i : Nat} :
    ∃ h' q, bodyAdd b o e ⟨i, g, sc⟩ = .ok ((), ⟨i, h', sc⟩) ∧ BodyHas ty b h' (ps ++ [q]) (xs ++ [x]) ∧ g.next ≤ h'.next ∧ Agree 1 b g h' := by
  have hv0 := hb.body.valid
  have hbm := hb.mem
  obtain ⟨m, hm1, hm2⟩ := hb.entries
  have hmem : ∀ p ∈ ps, p < h.next ∧ b < p := fun p hp => ⟨(hbm p hp).2, (hbm p hp).1⟩
  have hb := hb.keep (ha.mono hv0.1 (Nat.le_refl _)) hgn
  obtain ⟨h1, h2, -⟩ := hb
  obtain ⟨h', q, r1, r2, r3⟩ := append_spec h1 vo hob
  have hg := r3.grow
  have hqf := r3.fresh
  rw [← hqf] at hs
  obtain ⟨h0, s3, s4, s5⟩ := hs
  have hvq : h'.Valid q := r2.chain.valid q (by simp)
  have hq1 : h.next ≤ q := by
    rw [hqf]
    split
    · next hh => exact hlo hh
    · exact hgn
  -- nodes that are neither the body nor the entry
  have hfr : ∀ p, g.Valid p → p ≠ b → p ≠ q → h'.cell p = { g.cell p with back := if ps.getLast? = some p then q else (g.cell p).back } :=
    fun p v w hp => r3.frame p v w hp
  have hcq : ∃ f k, h'.cell q = { h0.cell q with parent := b, front := f, back := k } := by
    have g1 := r3.node
    have g2 := r2.parents q (by simp)
    refine ⟨(h'.cell q).front, (h'.cell q).back, ?_⟩
    rw [s5]
    rw [payload_eq g1]
    simp only [g2]
  have hme : Entries b g m ps xs := hm2.keep hgn (fun q q1 q2 _ => (ha q (by have := hv0.1; omega) (by omega)).2)
    fun p hp => ⟨(h.cell p).back, by rw [(ha p (by have := hmem p hp; omega) (hmem p hp).1).2]⟩
  -- the nodes of the new entry
  obtain ⟨hi, hhi, hq2, hq3, hq4⟩ : ∃ hi, hi = (if (g.cell o).parent = 0 then g.next else g.next + 1) ∧ q < hi ∧ hi ≤ h'.next ∧ ∀ r, r < hi → r ≠ q → r < g.next := by
    refine ⟨_, rfl, ?_⟩
    rw [hqf]
    have hv := hvq.2
    rw [hqf] at hv
    split at hv <;> rename_i hh
    · simp only [hh, if_true]
      exact ⟨vo.2, hg, fun r r1 _ => r1⟩
    · simp only [hh, if_false]
      exact ⟨Nat.lt_succ_self _, by omega, fun r r1 r2 => by omega⟩
  rw [← hhi] at s3
  refine ⟨h', q, ?_, ⟨r2, ?_, hi, hq3, ?_⟩, hg, ?_⟩
  · show (bodyAppend (g.next + 1) g b o).bind _ = _
    rw [bodyAppend_plain (Nat.ne_of_gt h1.valid.1) vo ht, r1]
    rfl
  · rw [← h2]
    have := congrArg Node.type r3.bodyPayload.1
    exact this
  · refine .snoc (lo := h.next) (hme.keep hg (fun r w1 w2 w3 => ?_) fun p hp => ⟨_, hfr p ⟨by have := hmem p hp; omega, by have := hmem p hp; omega⟩ (by have := hmem p hp; omega) (by have := hmem p hp; omega)⟩) hm1 ?_
    · rw [hfr r ⟨by omega, by omega⟩ (by omega) (by omega), if_neg]
      exact fun hh => w3 (List.mem_of_getLast? hh)
    · obtain ⟨f, k, hcq⟩ := hcq
      refine ⟨hq1, hq2, hq3, h0, f, k, s3, fun r w1 w2 w4 => ?_, hcq⟩
      obtain ⟨v1, v2⟩ := s4 r w1 (hq4 r w2 w4) w4
      refine ⟨⟨v1.1, by have := v1.2; omega⟩, ?_⟩
      rw [hfr r v1 (by have := hv0.2; omega) w4, v2, if_neg]
      intro hh
      have := hmem r (List.mem_of_getLast? hh)
      omega
  · intro r w1 w2
    have hv : g.Valid r := ⟨w1, by have := h1.valid.2; omega⟩
    refine ⟨⟨w1, by have := hv.2; omega⟩, ?_⟩
    rw [hfr r hv (by omega) (by have := hv0.2; omega), if_neg]
    intro hh
    have := (hmem r (List.mem_of_getLast? hh)).2
    omega

theorem printAll_snoc {E : Ser.Env} {f : Fn} : ∀ {ps : List Nat} {xs : List Bytes} {p : Nat}, PrintAll E f ps xs → Prints E f p x → PrintAll E f (ps ++ [p]) (xs ++ [x])
  | [], [], _, _, h => ⟨h, trivial⟩
  | _ :: _, _ :: _, _, h1, h2 => ⟨h1.1, printAll_snoc h1.2 h2⟩

theorem Entries.print {E : Ser.Env} {h : Heap} {m : Nat} {ps : List Nat} {xs : List Bytes} (he : Entries b h m ps xs) (hE : Agree b h.next h E.h) (hb : Neutral E b) (hf : Fits xs.flatten) :
    PrintAll E .code ps xs := by
  induction he with
  | nil => trivial
  | @snoc m lo hi p t ps xs h1 h2 h3 ih =>
    have hlo := h1.lower.1
    rw [List.flatten_append] at hf
    obtain ⟨f1, f2⟩ := Fits.append hf
    refine printAll_snoc (ih f1) ?_
    simp only [List.flatten_cons, List.flatten_nil, List.append_nil] at f2
    obtain ⟨g1, g2, g3, h0, f, k, g4, g5, g6⟩ := h3
    have hp := hE p (by omega) (by omega)
    refine g4 E b f k (fun q q1 q2 q3 => ?_) hp.1 (by rw [hp.2, g6]) hb f2
    have w1 := g5 q q1 q2 q3
    have w2 := hE q (by omega) (by omega)
    exact ⟨w2.1, by rw [w2.2, w1.2]⟩

/-- What the body prints as. -/
theorem BodyHas.says {E : Ser.Env} {h : Heap} {ps : List Nat} {xs : List Bytes} (hb : BodyHas ty b h ps xs) (hE : Agree b h.next h E.h)
    (ht : plainBody ty = true) (hf : Fits xs.flatten) : Prints E .body b xs.flatten ∧ Prints E .code b xs.flatten := by
  have hm := hb.mem
  obtain ⟨h1, h2, m, h3, h4⟩ := hb
  have hbE := hE b (Nat.le_refl _) h1.valid.2
  have hty : (E.h.cell b).type = ty := by rw [hbE.2, h2]
  refine C34_body (IsBody.agree h1 (fun q hq => ?_) (by have := hbE.1.2; omega)) (by rw [hty]; exact ht) (h4.print hE (.inr ⟨hbE.1, ?_, ?_⟩) hf)
  · rcases hq with rfl | hq
    · exact hbE
    · have := hm q hq
      exact hE q (by omega) this.2
  · rw [hty]
    rintro rfl
    cases ht
  · rw [hty]
    rintro rfl
    cases ht

/-! ## Constants of the library as members -/

/-- The constants stand in the nodes as they should. -/
structure Consts (e : Env) (n : Nat) (h : Heap) : Prop where
  spelled : Spelled e h
  each : ∀ p ∈ [e.fmtNewline, e.accessPublic, e.accessProtected, e.accessPrivate, e.preElse, e.preEndif], p < n ∧ 0 < p ∧ (h.cell p).parent ≠ 0
  inside : n ≤ h.next

theorem Consts.keep {n : Nat} {h g : Heap} (hc : Consts e n h) (ha : Agree 1 n h g) (hg : h.next ≤ g.next) : Consts e n g := by
  obtain ⟨⟨h0, h1, h2, h3, h4, h4a, h4b⟩, h5, h6⟩ := hc
  have key : ∀ p ∈ [e.fmtNewline, e.accessPublic, e.accessProtected, e.accessPrivate, e.preElse, e.preEndif], g.cell p = h.cell p := fun p hp => (ha p (h5 p hp).2.1 (h5 p hp).1).2
  have k1 := key e.fmtNewline (by simp)
  have k2 := key e.accessPublic (by simp)
  have k3 := key e.accessProtected (by simp)
  have k4 := key e.accessPrivate (by simp)
  have k5 := key e.preElse (by simp)
  have k6 := key e.preEndif (by simp)
  refine ⟨⟨h0, by rw [k1]; exact h1, by rw [k2]; exact h2, by rw [k3]; exact h3, by rw [k4]; exact h4, by rw [k5]; exact h4a, by rw [k6]; exact h4b⟩, fun p hp => ?_, by omega⟩
  rw [key p hp]
  exact h5 p hp

/-- Such a node prints as `y`, wherever it stands. -/
inductive Leaf (n : Node) : Bytes → Prop where
  | newline : n.type = .NewLine → Leaf n b!"\n"
  | label {z} : n.type = .Access_Private ∨ n.type = .Access_Protected ∨ n.type = .Access_Public → n.name = z → Leaf n z
  | comment {z} : n.type = .Comment → n.content = z → Leaf n z
  | otherwise : n.type = .Preprocess_Else → Leaf n b!"#else\n"
  | endif : n.type = .Preprocess_EndIf → Leaf n b!"#endif\n"

theorem Leaf.plain {n : Node} (h : Leaf n y) : isBodyType n.type = false := by
  cases h with
  | newline h => rw [h]; rfl
  | label h => rcases h with h | h | h <;> rw [h] <;> rfl
  | comment h => rw [h]; rfl
  | otherwise h => rw [h]; rfl
  | endif h => rw [h]; rfl

theorem Leaf.shown {h : Heap} {p : Nat} (hl : Leaf (h.cell p) y) : Shown a p h y := by
  intro E x f k _ h2 h3 _ _
  cases hl with
  | newline ht => exact C48_newline ⟨h2, rfl, by rw [h3]; exact ht⟩
  | otherwise ht => exact C48_else ⟨h2, rfl, by rw [h3]; exact ht⟩ ‹_›
  | endif ht => exact C48_endif ⟨h2, rfl, by rw [h3]; exact ht⟩ ‹_›
  | label ht hy =>
    subst hy
    have := C48_access (e := E) (p := p) (n := E.h.cell p) (by
      rcases ht with ht | ht | ht
      · exact .inl ⟨h2, rfl, by rw [h3]; exact ht⟩
      · exact .inr (.inl ⟨h2, rfl, by rw [h3]; exact ht⟩)
      · exact .inr (.inr ⟨h2, rfl, by rw [h3]; exact ht⟩))
    rw [h3] at this
    exact this
  | comment ht hy =>
    subst hy
    have := C48_text (e := E) (p := p) (n := E.h.cell p) (.inr (.inr (.inl ⟨h2, rfl, by rw [h3]; exact ht⟩)))
    rw [h3] at this
    exact this

/-- A constant is appended to a body: a copy of it. -/
theorem BodyHas.const {h : Heap} {ps : List Nat} {xs : List Bytes} {o : Nat} (hb : BodyHas ty b h ps xs) (vo : h.Valid o) (hob : o ≠ b) (hp : (h.cell o).parent ≠ 0)
    (hl : Leaf (h.cell o) y) {sc : List Bytes} {i : Nat} :
    ∃ h' q, bodyAdd b o e ⟨i, h, sc⟩ = .ok ((), ⟨i, h', sc⟩) ∧ BodyHas ty b h' (ps ++ [q]) (xs ++ [y]) ∧ h.next ≤ h'.next ∧ Agree 1 b h h' := by
  refine hb.append (fun q q1 q2 => ⟨⟨q1, q2⟩, rfl⟩) (Nat.le_refl _) vo hob hl.plain (fun hh => absurd hh hp) ?_
  simp only [hp, if_false]
  refine ⟨{ h with cell := fun q => if q = h.next then { h.cell o with parent := 0 } else h.cell q }, ?_, fun q q1 q2 => absurd q1 (by omega), by simp⟩
  refine Shown.within (Leaf.shown ?_) (Nat.lt_succ_self _)
  simp only [if_true]
  cases hl with
  | newline ht => exact .newline ht
  | otherwise ht => exact .otherwise ht
  | endif ht => exact .endif ht
  | label ht hy => exact .label ht hy
  | comment ht hy => exact .comment ht hy

/-- A new code is appended to a body. -/
theorem BodyHas.add {h g : Heap} {ps : List Nat} {xs : List Bytes} {o : Nat} (hb : BodyHas ty b h ps xs) (ha : Agree 1 h.next h g) (ho : h.next ≤ o) (hog : o < g.next)
    (hs : Single g o) (hy : ShownIn h.next g.next o g y) {sc : List Bytes} {i : Nat} :
    ∃ h' q, bodyAdd b o e ⟨i, g, sc⟩ = .ok ((), ⟨i, h', sc⟩) ∧ BodyHas ty b h' (ps ++ [q]) (xs ++ [y]) ∧ g.next ≤ h'.next ∧ Agree 1 b h h' := by
  have hv := hb.body.valid
  obtain ⟨h', q, r1, r2, r3, r4⟩ := hb.append (e := e) (x := y) (sc := sc) (i := i) (o := o) ha (by omega) ⟨by have := hv.1; have := hv.2; omega, hog⟩ (by have := hv.2; omega) hs.2
    (fun _ => ho) (by
      simp only [hs.1, if_true]
      exact ⟨g, hy, fun q q1 q2 _ => ⟨⟨by have := hv.1; have := hv.2; omega, q2⟩, rfl⟩, by rw [← hs.1]⟩)
  exact ⟨h', q, r1, r2, r3, (ha.mono (Nat.le_refl _) (by have := hv.2; omega)).trans r4⟩

/-! ## The loop over the members -/

/-- One turn of the loop over members. -/
def turn (member : P Unit) : Unit → P (Bool × Unit) := fun _ => do
  let go ← if ← left then do pure ((← curN).type ≠ .BraceCurly_Close : Bool) else pure false
  if go then
    member
    return (true, ())
  else return (false, ())

/-- What a turn does: a semicolon is eaten, anything else becomes an entry of the body. -/
def item (b : Nat) (f : TokType → P Nat) : P Unit := do
  hash
  let t ← curN
  if t.type = .Statement_End then eat .Statement_End
  else bodyAdd b (← f t.type)

theorem members_loop (member : P Unit) : members member = (do let _ ← loop (turn member) (); return ()) := rfl

theorem turn_go {member : P Unit} {s' : St} (h : Here e s (t :: ts) rest) (ht : t.type ≠ .BraceCurly_Close) (hm : member e s = .ok ((), s')) :
    turn member () e s = .ok ((true, ()), s') := by
  unfold turn
  refine bind_run h.left ?_
  simp only [if_true]
  refine bind_run h.curN ?_
  refine bind_run (pureP _ _ _) ?_
  simp only [ht, ne_eq, not_false_eq_true, decide_true, if_true]
  exact bind_run hm rfl

theorem turn_stop {member : P Unit} (h : Here e s (t :: ts) rest) (ht : t.type = .BraceCurly_Close) : turn member () e s = .ok ((false, ()), s) := by
  unfold turn
  refine bind_run h.left ?_
  simp only [if_true]
  refine bind_run h.curN ?_
  refine bind_run (pureP _ _ _) ?_
  simp only [ht, ne_eq, not_true_eq_false, decide_false, Bool.false_eq_true, if_false]
  rfl

theorem turn_end {member : P Unit} (h : Here e s [] rest) : turn member () e s = .ok ((false, ()), s) := by
  unfold turn
  refine bind_run h.done ?_
  simp only [Bool.false_eq_true, if_false]
  exact bind_run (pureP _ _ _) rfl

theorem hash_none (h : Here e s (t :: ts) rest) (ht : t.type ≠ .Preprocess_Hash) : hash e s = .ok ((), s) := by
  unfold hash
  refine bind_run h.curN ?_
  simp only [ht, if_false]
  rfl

theorem item_semi {f : TokType → P Nat} (h : Here e s (t :: ts) rest) (ht : t.type = .Statement_End) : item b f e s = .ok ((), s.adv 1) := by
  unfold item
  refine bind_run (hash_none h (by rw [ht]; decide)) ?_
  refine bind_run h.curN ?_
  simp only [ht, if_true]
  have := h.eat
  rw [ht] at this
  exact this

theorem item_run {f : TokType → P Nat} {p : Nat} {s1 s2 : St} (h : Here e s (t :: ts) rest) (ht : t.type ∉ [TokType.Statement_End, .Preprocess_Hash]) (hf : f t.type e s = .ok (p, s1))
    (ha : bodyAdd b p e s1 = .ok ((), s2)) : item b f e s = .ok ((), s2) := by
  simp only [List.mem_cons, List.not_mem_nil, or_false, not_or] at ht
  unfold item
  refine bind_run (hash_none h ht.2) ?_
  refine bind_run h.curN ?_
  simp only [ht.1, if_false]
  exact bind_run hf ha

theorem constant_run {f : Env → Nat} (h : Here e s (t :: ts) rest) : constant t.type f e s = .ok (f e, s.adv 1) := by
  unfold constant
  refine bind_run (envP _ _) ?_
  exact bind_run h.eat rfl

theorem comment_run {fl : Nat} (ht : TokIs e.mem t .Comment fl y) (hn : 0 < s.heap.next) (h : Here e s (t :: ts) rest) :
    comment e s = .ok (s.heap.next, ⟨s.idx + 1, grown s.heap { type := .Comment, content := y }, s.scope⟩) := by
  refine inScope_run (sc := b!"parse_comment" :: s.scope) ?_ rfl
  have h0 := h.heap s.heap (b!"parse_comment" :: s.scope)
  refine bind_run h0.curN ?_
  refine bind_run ht.bytesP ?_
  refine bind_run (make_run (s := ⟨s.idx, s.heap, b!"parse_comment" :: s.scope⟩) hn _) ?_
  have := (h0.heap (grown s.heap { type := .Comment, content := y }) (b!"parse_comment" :: s.scope)).eat
  rw [ht.type] at this
  exact bind_run this rfl

theorem comment_gives {fl : Nat} (ht : TokIs e.mem t .Comment fl y) (hn : 0 < s.heap.next) (h : Here e s (t :: ts) rest) : Gives comment e s 1 y := by
  refine ⟨_, _, comment_run ht hn h, agree_kept (Nat.succ_pos _) (Nat.le_refl _) (kept_grown _ _), Nat.le_refl _, rfl, ?_, Leaf.shown (.comment ?_ ?_)⟩
  · unfold Single
    simp [grown, isBodyType]
  · simp [grown]
  · simp [grown]

/-- What ends a list of members: a closing brace, or the end of the tokens. -/
structure Stop (more rest : List Tok) : Prop where
  ends : more = [] ∨ ∃ z l, more = z :: l ∧ z.type = .BraceCurly_Close
  behind : Behind (more ++ rest)

theorem Stop.brace {z : Tok} (hz : z.type = .BraceCurly_Close) (hm : 1 ≤ (more ++ rest).length) : Stop (z :: more) rest :=
  ⟨.inr ⟨z, more, rfl, hz⟩, by simp at hm ⊢; omega, fun t ht => by cases ht; rw [hz]; decide⟩

/-- The loops over members: that of classes, namespaces and files, and that of unions, which does not look whether there are tokens left and does not
skip semicolons. The functions read one member, by the type of its first token; `proc` is the name of the scope. -/
inductive Reader where
  | body (proc : Bytes) (f : TokType → P Nat)
  | union (f : TokType → P Nat)

/-- The function for a member. -/
def Reader.member : Reader → TokType → P Nat
  | .body _ f => f
  | .union f => f

/-- One turn of the loop in `unionBody`. -/
def unionTurn (b : Nat) (f : TokType → P Nat) : Unit → P (Bool × Unit) := fun _ => do
  if ← checkN .BraceCurly_Close then return (false, ())
  else
    hash
    bodyAdd b (← f (← curN).type)
    return (true, ())

/-- One turn of the loop. -/
def Reader.turn (b : Nat) : Reader → Unit → P (Bool × Unit)
  | .body _ f => Parse.turn (item b f)
  | .union f => unionTurn b f

theorem Reader.go {R : Reader} {p : Nat} {s1 s2 : St} (h : Here e s (t :: ts) rest) (ht : t.type ∉ [TokType.Statement_End, .Preprocess_Hash, .BraceCurly_Close])
    (hf : R.member t.type e s = .ok (p, s1)) (ha : bodyAdd b p e s1 = .ok ((), s2)) : R.turn b () e s = .ok ((true, ()), s2) := by
  simp only [List.mem_cons, List.not_mem_nil, or_false, not_or] at ht
  cases R with
  | body q f => exact turn_go h ht.2.2 (item_run h (by simp [ht]) hf ha)
  | union f =>
    show unionTurn b f () e s = _
    unfold unionTurn checkN
    refine bind_run (bind_run h.left (by simp only [if_true]; exact bind_run h.curN (pureP _ _ _))) ?_
    simp only [ht.2.2, decide_false, Bool.false_eq_true, if_false]
    refine bind_run (hash_none h ht.2.1) ?_
    refine bind_run h.curN ?_
    refine bind_run hf ?_
    exact bind_run ha rfl

/-- A directive: the hash is skipped. -/
theorem Reader.hashed {R : Reader} {g : Tok} {p : Nat} {s1 s2 : St} (h : Here e s (g :: t :: ts) rest) (hg : g.type = .Preprocess_Hash) (ht : t.type ≠ .Statement_End)
    (hf : R.member t.type e (s.adv 1) = .ok (p, s1)) (ha : bodyAdd b p e s1 = .ok ((), s2)) : R.turn b () e s = .ok ((true, ()), s2) := by
  have hh : hash e s = .ok ((), s.adv 1) := by
    unfold hash
    refine bind_run h.curN ?_
    simp only [hg, if_true]
    have := h.eat
    rw [hg] at this
    exact this
  cases R with
  | body q f =>
    refine turn_go h (by rw [hg]; decide) ?_
    unfold item
    refine bind_run hh ?_
    refine bind_run h.tail.curN ?_
    simp only [ht, if_false]
    exact bind_run hf ha
  | union f =>
    show unionTurn b f () e s = _
    unfold unionTurn checkN
    refine bind_run (bind_run h.left (by simp only [if_true]; exact bind_run h.curN (pureP _ _ _))) ?_
    simp only [hg, reduceCtorEq, decide_false, Bool.false_eq_true, if_false]
    refine bind_run hh ?_
    refine bind_run h.tail.curN ?_
    refine bind_run hf ?_
    exact bind_run ha rfl

theorem Reader.stop {R : Reader} (h : Here e s (t :: ts) rest) (ht : t.type = .BraceCurly_Close) : R.turn b () e s = .ok ((false, ()), s) := by
  cases R with
  | body q f => exact turn_stop h ht
  | union f =>
    show unionTurn b f () e s = _
    unfold unionTurn checkN
    refine bind_run (bind_run h.left (by simp only [if_true]; exact bind_run h.curN (pureP _ _ _))) ?_
    simp only [ht, decide_true, if_true]
    rfl

/-- The loop runs in the scope it is known for. -/
def Reader.scope : Reader → List Bytes → Prop
  | .body proc _, sc => sc.head? = some proc
  | .union _, _ => True

/-- What the loop over the members does with the tokens `ts`. -/
def Reads (e : Env) (rest : List Tok) (n : Nat) (R : Reader) (ts : List Tok) (x : Bytes) : Prop :=
  ∀ (ty : CodeType) (b : Nat) (s : St) (ps : List Nat) (xs : List Bytes) (more : List Tok), R.scope s.scope → BodyHas ty b s.heap ps xs → n ≤ b → Consts e n s.heap →
    Stop more rest → (more = [] → ∃ q f, R = .body q f) → Here e s (ts ++ more) rest →
    ∃ h' ps' ys k, k ≤ ts.length + 1 ∧ Turns (R.turn b) e k () s () ⟨s.idx + ts.length, h', s.scope⟩ ∧ BodyHas ty b h' ps' (xs ++ ys) ∧ ys.flatten = x ∧
      s.heap.next ≤ h'.next ∧ Agree 1 b s.heap h'

variable {n : Nat} {R : Reader}

theorem reads_nil : Reads e rest n R [] [] := by
  intro ty b s ps xs more hsc hb hn hc hz hE h
  have hs : R.turn b () e s = .ok ((false, ()), s) := by
    rcases hz.ends with rfl | ⟨z, l, rfl, hz'⟩
    · obtain ⟨q, f, rfl⟩ := hE rfl
      exact turn_end h
    · exact Reader.stop h hz'
  exact ⟨s.heap, ps, [], 1, Nat.le_refl _, .stop hs, by rw [List.append_nil]; exact hb, rfl, Nat.le_refl _, fun q q1 q2 => ⟨⟨q1, by have := hb.body.valid.2; omega⟩, rfl⟩⟩

/-- One item, and the rest. -/
theorem reads_cons {us : List Tok} (hus : us ≠ []) (hi : ∀ (ty : CodeType) (b : Nat) (s : St) (ps : List Nat) (xs : List Bytes) (more : List Tok), R.scope s.scope → BodyHas ty b s.heap ps xs →
      n ≤ b → Consts e n s.heap → Stop more rest → (more = [] → ∃ q f, R = .body q f) → Here e s (us ++ (ts ++ more)) rest →
      ∃ h' ps' ys, R.turn b () e s = .ok ((true, ()), ⟨s.idx + us.length, h', s.scope⟩) ∧ BodyHas ty b h' ps' (xs ++ ys) ∧ ys.flatten = y ∧ s.heap.next ≤ h'.next ∧ Agree 1 b s.heap h')
    (hr : Reads e rest n R ts x) : Reads e rest n R (us ++ ts) (y ++ x) := by
  intro ty b s ps xs more hsc hb hn hc hz hE h
  rw [List.append_assoc] at h
  obtain ⟨h1, ps1, ys1, r1, r2, r3, r4, r5⟩ := hi ty b s ps xs more hsc hb hn hc hz hE h
  have hh : Here e ⟨s.idx + us.length, h1, s.scope⟩ (ts ++ more) rest := (h.advN.heap _ _).at rfl
  obtain ⟨h2, ps2, ys2, k, w1, w2, w3, w4, w5, w6⟩ := hr ty b ⟨s.idx + us.length, h1, s.scope⟩ ps1 (xs ++ ys1) more hsc r2 hn (hc.keep (r5.mono (Nat.le_refl _) hn) r4) hz hE hh
  have w5 : h1.next ≤ h2.next := w5
  refine ⟨h2, ps2, ys1 ++ ys2, k + 1, ?_, .go r1 ?_, by rw [← List.append_assoc]; exact w3, by rw [List.flatten_append, r3, w4], by omega, r5.trans w6⟩
  · have := List.length_pos_iff.2 hus
    rw [List.length_append]
    omega
  · rw [List.length_append, ← Nat.add_assoc]
    exact w2

theorem reads_semi {q : Bytes} {f : TokType → P Nat} (ht : t.type = .Statement_End) (hr : Reads e rest n (.body q f) ts x) : Reads e rest n (.body q f) (t :: ts) x := by
  refine reads_cons (us := [t]) (y := []) (by simp) ?_ hr
  intro ty b s ps xs more hsc hb hn hc hz hE h
  rw [List.cons_append, List.nil_append] at h
  exact ⟨s.heap, ps, [], turn_go h (by rw [ht]; decide) (item_semi h ht), by rw [List.append_nil]; exact hb, rfl, Nat.le_refl _, fun q q1 q2 => ⟨⟨q1, by have := hb.body.valid.2; omega⟩, rfl⟩⟩

/-- An item that is a new code. -/
theorem reads_gives {us : List Tok} (hi : ∀ (s : St) (more : List Tok), R.scope s.scope → Consts e n s.heap → Stop more rest → 0 < s.heap.next →
      Here e s (us ++ (ts ++ more)) rest →
      ∃ t tl, us = t :: tl ∧ t.type ∉ [TokType.Statement_End, .Preprocess_Hash, .BraceCurly_Close] ∧ GivesIn (R.member t.type) e s us.length y)
    (hne : us ≠ []) (hr : Reads e rest n R ts x) : Reads e rest n R (us ++ ts) (y ++ x) := by
  refine reads_cons hne ?_ hr
  intro ty b s ps xs more hsc hb hn hc hz hE h
  obtain ⟨t, tl, rfl, ht, hg⟩ := hi s more hsc hc hz hb.body.next h
  obtain ⟨p, h', r1, r2, r3, r4, r5, r6⟩ := hg
  obtain ⟨h'', q, w1, w2, w3, w4⟩ := hb.add (e := e) (sc := s.scope) (i := s.idx + (t :: tl).length) r2 r3 r4 r5 r6
  refine ⟨h'', _, [y], Reader.go h ht r1 w1, w2, by simp, by omega, w4⟩

/-- An item that is a constant. -/
theorem reads_const {us : List Tok} {o : Nat} (ho : o ∈ [e.fmtNewline, e.accessPublic, e.accessProtected, e.accessPrivate, e.preElse, e.preEndif])
    (hi : ∀ (s : St) (more : List Tok), Here e s (us ++ more) rest → ∃ t tl, us = t :: tl ∧ t.type ∉ [TokType.Statement_End, .Preprocess_Hash, .BraceCurly_Close] ∧
      R.member t.type e s = .ok (o, ⟨s.idx + us.length, s.heap, s.scope⟩)) (hl : ∀ h, Spelled e h → Leaf (h.cell o) y)
    (hne : us ≠ []) (hr : Reads e rest n R ts x) : Reads e rest n R (us ++ ts) (y ++ x) := by
  refine reads_cons hne ?_ hr
  intro ty b s ps xs more hsc hb hn hc hz hE h
  obtain ⟨t, tl, rfl, ht, hg⟩ := hi s _ h
  have hk := hc.each o ho
  have hin := hc.inside
  obtain ⟨h'', q, w1, w2, w3, w4⟩ := hb.const (e := e) (sc := s.scope) (i := s.idx + (t :: tl).length) ⟨hk.2.1, by omega⟩ (by omega) hk.2.2 (hl _ hc.spelled)
  refine ⟨h'', _, [y], Reader.go h ht hg w1, w2, by simp, by omega, w4⟩

/-- A directive that is a new code. -/
theorem reads_hash {us : List Tok} {g : Tok} (hg : g.type = .Preprocess_Hash) (hi : ∀ (s : St) (more : List Tok), R.scope s.scope → Stop more rest →
      0 < s.heap.next → Here e s (us ++ (ts ++ more)) rest →
      ∃ t tl, us = t :: tl ∧ t.type ≠ .Statement_End ∧ GivesIn (R.member t.type) e s us.length y)
    (hr : Reads e rest n R ts x) : Reads e rest n R (g :: us ++ ts) (y ++ x) := by
  refine reads_cons (us := g :: us) (by simp) ?_ hr
  intro ty b s ps xs more hsc hb hn hc hz hE h
  obtain ⟨t, tl, rfl, ht, hg'⟩ := hi (s.adv 1) more hsc hz hb.body.next (by simpa using h.tail)
  obtain ⟨p, h', r1, r2, r3, r4, r5, r6⟩ := hg'
  obtain ⟨h'', q, w1, w2, w3, w4⟩ := hb.add (e := e) (sc := s.scope) (i := s.idx + 1 + (t :: tl).length) r2 r3 r4 r5 r6
  have r3 : s.heap.next ≤ p := r3
  refine ⟨h'', _, [y], ?_, w2, by simp, by omega, w4⟩
  rw [show s.idx + (g :: t :: tl).length = s.idx + 1 + (t :: tl).length by simp; omega]
  exact Reader.hashed h hg ht r1 w1

/-- A directive that is a constant. -/
theorem reads_hash_const {us : List Tok} {g : Tok} {o : Nat} (hg : g.type = .Preprocess_Hash)
    (ho : o ∈ [e.fmtNewline, e.accessPublic, e.accessProtected, e.accessPrivate, e.preElse, e.preEndif])
    (hi : ∀ (s : St) (more : List Tok), Here e s (us ++ more) rest → ∃ t tl, us = t :: tl ∧ t.type ≠ .Statement_End ∧
      R.member t.type e s = .ok (o, ⟨s.idx + us.length, s.heap, s.scope⟩)) (hl : ∀ h, Spelled e h → Leaf (h.cell o) y)
    (hr : Reads e rest n R ts x) : Reads e rest n R (g :: us ++ ts) (y ++ x) := by
  refine reads_cons (us := g :: us) (by simp) ?_ hr
  intro ty b s ps xs more hsc hb hn hc hz hE h
  obtain ⟨t, tl, rfl, ht, hg'⟩ := hi (s.adv 1) _ h.tail
  have hk := hc.each o ho
  have hin := hc.inside
  obtain ⟨h'', q, w1, w2, w3, w4⟩ := hb.const (e := e) (sc := s.scope) (i := s.idx + 1 + (t :: tl).length) ⟨hk.2.1, by omega⟩ (by omega) hk.2.2 (hl _ hc.spelled)
  refine ⟨h'', _, [y], ?_, w2, by simp, by omega, w4⟩
  rw [show s.idx + (g :: t :: tl).length = s.idx + 1 + (t :: tl).length by simp; omega]
  exact Reader.hashed h hg ht hg' w1

end Verif.Parse
