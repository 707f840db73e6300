import Verif.Proof.ReadType
/-!
# Running the parser on the tokens of a variable
-/
namespace Verif.Parse
open Verif.Lex (Tok)
open Verif.Ast P

variable {e : Env} {s : St} {t u : Tok} {ts more rest : List Tok} {ty : TokType} {fl : Nat} {x : Bytes} {α β : Type}

/-! ## Texts as they are -/

/-- The node of a text. -/
def textNode (x : Bytes) : Node := { type := .Untyped, name := x, content := x }

theorem untyped_run {a : Nat} (hx : Lex.slice e.mem a x.length = x) (hne : x ≠ []) (hn : 0 < s.heap.next) :
    untyped ⟨a, x.length⟩ e s = .ok (s.heap.next, ⟨s.idx, grown s.heap (textNode x), s.scope⟩) := by
  unfold untyped
  refine bind_run (a := x) (s' := s) ?_ ?_
  · unfold Parse.bytes
    rw [bytes_slice rfl hx]
    rfl
  · show (untypedStr e.cfg s.heap x).bind _ = _
    unfold untypedStr guardName
    rw [if_neg hne, finish_eq hn]
    rfl

theorem depth_foldl (o z : List TokType) : ∀ (ts : List Tok) (n : Int),
    ts.foldl (fun n t => if t.type ∈ o then n + 1 else if t.type ∈ z then n - 1 else n) n = depth o z ts n
  | [], _ => rfl
  | _ :: ts, n => by rw [List.foldl_cons, depth_foldl o z ts]; rfl

theorem flatMap_single (l : List Tok) : l.flatMap (fun t => [t]) = l := by
  induction l with
  | nil => rfl
  | cons t l ih => rw [List.flatMap_cons, ih]; rfl

/-- A loop that takes one token after the other. -/
theorem loop_toks {σ : Type} {step : σ → P (Bool × σ)} {nx : σ → Tok → σ} {x0 : σ} {vs : List Tok} {tail : List Tok}
    (hgo : ∀ pre t l (s : St), vs = pre ++ t :: l → Here e s (t :: (l ++ tail)) rest →
      step (pre.foldl nx x0) e s = .ok ((true, nx (pre.foldl nx x0) t), s.adv 1))
    (hstop : ∀ s : St, Here e s tail rest → step (vs.foldl nx x0) e s = .ok ((false, vs.foldl nx x0), s))
    (h : Here e s (vs ++ tail) rest) : loop step x0 e s = .ok (vs.foldl nx x0, s.adv vs.length) := by
  have := loop_items (e := e) (s := s) (rest := rest) (step := step) (toks := fun t => [t]) (nx := nx) (x0 := x0) (items := vs) (tail := tail)
    (fun pre t l s hp h => hgo pre t l s hp (by rw [flatMap_single] at h; exact h)) hstop (fun _ _ => List.cons_ne_nil _ _) (by rwa [flatMap_single])
  rwa [flatMap_single] at this

theorem skipTo_run {ty : TokType} {vs : List Tok} (hv : ∀ t ∈ vs, Code t ∧ t.type ≠ ty) (hu : u.type = ty) (hc : Code u)
    (h : Here e s (vs ++ u :: more) rest) : skipTo ty e s = .ok ((), s.adv vs.length) := by
  unfold skipTo
  refine bind_run (loop_toks (nx := fun _ _ => ()) ?_ ?_ h) rfl
  · intro pre t l s hp h
    obtain ⟨h1, h2⟩ := hv t (by rw [hp]; simp)
    refine bind_run (h.leftAnd h1.fmt _) ?_
    simp only [ne_eq, h2, not_false_eq_true, decide_true, if_true]
    exact bind_run (s' := s.adv 1) (a := ()) (bind_run (h.cur h1.fmt) h.eat) rfl
  · intro s h
    refine bind_run (h.leftAnd hc.fmt _) ?_
    simp only [ne_eq, hu, not_true_eq_false, decide_false, Bool.false_eq_true, if_false]
    rfl

theorem skipGroup_run {o z : TokType} {vs : List Tok} (hv : Inside o z vs) (hoz : o ≠ z) (hu : u.type = z) (hc : Code u)
    (h : Here e s (vs ++ u :: more) rest) : skipGroup o z e s = .ok ((), s.adv vs.length) := by
  unfold skipGroup
  refine bind_run (loop_toks (nx := fun n t => if t.type ∈ [o] then n + 1 else if t.type ∈ [z] then n - 1 else n) ?_ ?_ h) rfl
  · intro pre t l s hp h
    obtain ⟨h1, h2⟩ := hv.1 pre t l hp
    rw [depth_foldl]
    have : ¬ (t.type = z ∧ ¬ depth [o] [z] pre 0 > 0) := fun hh => hh.2 (h2 hh.1)
    refine bind_run h.left ?_
    simp only [if_true]
    refine bind_run (h.cur h1.fmt) ?_
    rw [if_neg this]
    refine bind_run h.eat ?_
    simp only [List.mem_singleton]
    rfl
  · intro s h
    rw [depth_foldl, hv.2]
    refine bind_run h.left ?_
    simp only [if_true]
    refine bind_run (h.cur hc.fmt) ?_
    rw [if_pos ⟨hu, by decide⟩]
    rfl

/-! ## The bounds of an array -/

/-- The bounds in slot `q`, as a list of texts; the nodes are between `a` and `b`. -/
def BoundsIn (a b : Nat) (h : Heap) : Nat → List Bytes → Prop
  | q, [] => q = 0
  | q, x :: l => a ≤ q ∧ q < b ∧ ∃ k, h.cell q = { textNode x with back := k } ∧ BoundsIn a b h k l

theorem BoundsIn.agree {a b a' b' : Nat} {h g : Heap} (ha : Agree a b h g) (h1 : a' ≤ a) (h2 : b ≤ b') : ∀ {l : List Bytes} {q : Nat}, BoundsIn a b h q l → BoundsIn a' b' g q l
  | [], _, hs => hs
  | x :: l, q, ⟨h3, h4, k, h5, h6⟩ => ⟨Nat.le_trans h1 h3, Nat.lt_of_lt_of_le h4 h2, k, (ha q h3 h4).2.trans h5, h6.agree ha h1 h2⟩

/-- What stands behind the bounds. -/
structure BoundsEnd (c : Bytes) (t : Tok) : Prop where
  code : Code t
  type : t.type ≠ .BraceSquare_Open
  op : t.type = .Operator → ∃ b, c[t.start]? = some b ∧ b ≠ 91

theorem emptyBrackets_run (h : Here e s (t :: more) rest) (hc : Code t) (hop : t.type = .Operator → ∃ b, e.mem[t.start]? = some b ∧ b ≠ 91) :
    emptyBrackets e s = .ok (false, s) := by
  unfold emptyBrackets
  refine bind_run (h.check hc.fmt _) ?_
  by_cases h1 : t.type = .Operator
  · obtain ⟨b, hb, hn⟩ := hop h1
    have hch : Parse.chr t 0 e s = .ok (b, s) := by
      unfold Parse.chr
      rw [Nat.add_zero, hb]
      rfl
    simp only [h1, decide_true, if_true]
    refine bind_run (h.cur hc.fmt) ?_
    refine bind_run hch ?_
    simp only [if_neg hn]
    rfl
  · simp only [h1, decide_false, Bool.false_eq_true, if_false]
    rfl

theorem arrayDeclN_run : ∀ {l : List Bytes} {ts : List Tok}, BoundToks e.mem l ts → ∀ {s : St} {fuel : Nat}, l.length < fuel → 0 < s.heap.next →
    Here e s (ts ++ t :: more) rest → BoundsEnd e.mem t →
    ∃ q h', arrayDeclN fuel e s = .ok (q, ⟨s.idx + ts.length, h', s.scope⟩) ∧ Kept s.heap h' ∧ s.heap.next ≤ h'.next ∧ BoundsIn s.heap.next h'.next h' q l := by
  intro l ts hb
  induction hb with
  | nil =>
    intro s fuel hf hn h ht
    cases fuel with
    | zero => omega
    | succ fuel =>
      have h0 := h.heap s.heap (b!"parse_array_decl" :: s.scope)
      refine ⟨0, s.heap, inScope_run (sc := b!"parse_array_decl" :: s.scope) ?_ rfl, Kept.refl _, Nat.le_refl _, rfl⟩
      refine bind_run (emptyBrackets_run h0 ht.code ht.op) ?_
      simp only [Bool.false_eq_true, if_false]
      refine bind_run (h0.check ht.code.fmt _) ?_
      simp only [ht.type, decide_false, Bool.false_eq_true, if_false]
      rfl
  | @cons o inner x z l ts ho hin hx hne hz hts ih =>
    intro s fuel hf hn h ht
    cases fuel with
    | zero => omega
    | succ fuel =>
      have h0 := h.heap s.heap (b!"parse_array_decl" :: s.scope)
      rw [List.cons_append, List.append_assoc, List.cons_append] at h0
      have hof : isFmt o = false := isFmt_of_type ho.type (by decide) (by decide)
      have hzc : Code z := ⟨by rw [hz.type]; decide, by rw [hz.type]; decide⟩
      have heo := h0.eat
      rw [ho.type] at heo
      have h1 := h0.tail
      have h2 := h1.advN
      have hez := h2.eat
      rw [hz.type] at hez
      have h3 := h2.tail
      -- the tokens inside
      obtain ⟨f, il, rfl⟩ : ∃ f il, inner = f :: il := by
        obtain ⟨f, l, hf, -⟩ := hx.text
        cases inner with
        | nil => cases hf
        | cons f il => exact ⟨f, il, rfl⟩
      obtain ⟨hfc, hfz⟩ := hin f List.mem_cons_self
      obtain ⟨f', l', hf', -, -, hsl⟩ := hx.text
      cases hf'
      have hidx : (((St.mk s.idx s.heap (b!"parse_array_decl" :: s.scope)).adv 1).adv (f :: il).length) =
          ⟨s.idx + (1 + (f :: il).length), s.heap, b!"parse_array_decl" :: s.scope⟩ := by
        rw [St.adv_adv]; rfl
      rw [hidx] at h2 hez h3
      have h2' := h2.heap (grown s.heap (textNode x)) (b!"parse_array_decl" :: s.scope)
      have hez := h2'.eat
      rw [hz.type] at hez
      have h3' : Here e ⟨s.idx + (1 + (f :: il).length) + 1, grown s.heap (textNode x), b!"parse_array_decl" :: s.scope⟩ (ts ++ t :: more) rest := h2'.tail
      -- what follows the bracket
      have hfin : ∃ h', (check .BraceSquare_Open >>= fun b => if b = true then (arrayDeclN fuel >>= fun a =>
            (change fun h => h.upd s.heap.next fun n => { n with back := a }) >>= fun _ => pure s.heap.next) else (pure s.heap.next : P Nat)) e
            ⟨s.idx + (1 + (f :: il).length) + 1, grown s.heap (textNode x), b!"parse_array_decl" :: s.scope⟩ =
          .ok (s.heap.next, ⟨s.idx + (o :: (f :: il ++ z :: ts)).length, h', b!"parse_array_decl" :: s.scope⟩) ∧ Kept s.heap h' ∧ s.heap.next ≤ h'.next ∧
          BoundsIn s.heap.next h'.next h' s.heap.next (x :: l) := by
        cases hts with
        | nil =>
          refine ⟨grown s.heap (textNode x), ?_, kept_grown _ _, Nat.le_succ _, Nat.le_refl _, Nat.lt_succ_self _, 0, ?_, rfl⟩
          · refine bind_run (h3'.check ht.code.fmt _) ?_
            simp only [ht.type, decide_false, Bool.false_eq_true, if_false]
            rw [pureP]
            simp only [List.length_cons, List.length_append, List.length_nil]
            rw [show s.idx + (1 + (il.length + 1)) + 1 = s.idx + (il.length + 1 + (0 + 1) + 1) by omega]
          · simp [grown, textNode]
        | @cons o' inner' x' z' l' ts' ho' hin' hx' hne' hz' hts' =>
          obtain ⟨q, h', r1, r2, r3, r4⟩ := ih (fuel := fuel) (by simp only [List.length_cons] at hf ⊢; omega) (Nat.succ_pos _) h3' ht
          have hv : h'.Valid s.heap.next := (r2 s.heap.next ⟨hn, Nat.lt_succ_self _⟩).1
          have hcell : h'.cell s.heap.next = textNode x := by
            rw [(r2 s.heap.next ⟨hn, Nat.lt_succ_self _⟩).2]
            simp [grown]
          refine ⟨changed h' s.heap.next { textNode x with back := q }, ?_, kept_changed ((kept_grown _ _).trans r2) (Nat.le_refl _), Nat.le_of_lt hv.2,
            Nat.le_refl _, hv.2, q, ?_, ?_⟩
          · have h3c := h3'
            rw [List.cons_append] at h3c
            refine bind_run (h3c.check (isFmt_of_type ho'.type (by decide) (by decide)) _) ?_
            simp only [ho'.type, decide_true, if_true]
            refine bind_run r1 ?_
            refine bind_run (upd_run hv) ?_
            rw [hcell, pureP]
            simp only [List.length_cons, List.length_append]
            rw [show ∀ n : Nat, s.idx + (1 + (il.length + 1)) + 1 + n = s.idx + (il.length + 1 + (n + 1) + 1) by intro n; omega]
          · simp [changed]
          · exact r4.agree (agree_changed (Nat.succ_pos _) (Nat.le_refl _) (.inl (Nat.lt_succ_self _))) (Nat.le_succ _) (Nat.le_refl _)
      obtain ⟨h', r1, r2, r3, r4⟩ := hfin
      refine ⟨s.heap.next, h', inScope_run (sc := b!"parse_array_decl" :: s.scope) ?_ rfl, r2, r3, r4⟩
      refine bind_run (emptyBrackets_run h0 ⟨by rw [ho.type]; decide, by rw [ho.type]; decide⟩ (fun hh => by rw [ho.type] at hh; cases hh)) ?_
      simp only [Bool.false_eq_true, if_false]
      refine bind_run (h0.check hof _) ?_
      simp only [ho.type, decide_true, if_true]
      refine bind_run heo ?_
      refine bind_run h1.left ?_
      simp only [Bool.not_true, Bool.false_eq_true, if_false]
      refine bind_run (h1.cur hfc.fmt) ?_
      simp only [hfz, if_false]
      refine bind_run (skipTo_run hin hz.type hzc h1) ?_
      rw [hidx]
      refine bind_run (upToPrev_run (s := (St.mk s.idx s.heap (b!"parse_array_decl" :: s.scope)).adv 1) (ts := il) (by simpa using h1) hx (by simp; omega)) ?_
      refine bind_run (untyped_run hsl hne hn) ?_
      refine bind_run h2'.left ?_
      simp only [Bool.not_true, Bool.false_eq_true, if_false]
      refine bind_run (h2'.cur hzc.fmt) ?_
      simp only [hz.type, ne_eq, not_true_eq_false, if_false]
      refine bind_run hez ?_
      exact r1

theorem BoundToks.length {c : Bytes} {l : List Bytes} {ts : List Tok} (h : BoundToks c l ts) : l.length ≤ ts.length := by
  induction h with
  | nil => exact Nat.le_refl _
  | cons => simp only [List.length_cons, List.length_append]; omega

theorem arrayDecl_run {l : List Bytes} (hl : ArrayToks e.mem l ts) (hn : 0 < s.heap.next) (h : Here e s (ts ++ t :: more) rest) (ht : BoundsEnd e.mem t) :
    ∃ q h', arrayDecl e s = .ok (q, ⟨s.idx + ts.length, h', s.scope⟩) ∧ Kept s.heap h' ∧ s.heap.next ≤ h'.next ∧ BoundsIn s.heap.next h'.next h' q l := by
  cases hl with
  | bounds hb =>
    refine arrayDeclN_run hb ?_ hn h ht
    have h1 := hb.length
    have h2 := h.length_le
    rw [List.length_append] at h2
    omega
  | @empty b hb =>
    have h0 := h.heap s.heap (b!"parse_array_decl" :: s.scope)
    have hc : isFmt b = false := isFmt_of_type hb.type (by decide) (by decide)
    have h1 := h0.heap (grown s.heap (textNode b!" ")) (b!"parse_array_decl" :: s.scope)
    have heat := h1.eat
    rw [hb.type] at heat
    refine ⟨s.heap.next, grown s.heap (textNode b!" "), inScope_run (sc := b!"parse_array_decl" :: s.scope) ?_ rfl, kept_grown _ _, Nat.le_succ _, Nat.le_refl _,
      Nat.lt_succ_self _, 0, by simp [grown, textNode], rfl⟩
    refine bind_run (a := true) (s' := ⟨s.idx, s.heap, b!"parse_array_decl" :: s.scope⟩) ?_ ?_
    · unfold emptyBrackets
      refine bind_run (h0.check hc _) ?_
      simp only [hb.type, decide_true, if_true]
      refine bind_run (h0.cur hc) ?_
      refine bind_run (hb.chr (i := 0) (b := 91) rfl) ?_
      simp only [if_true]
      refine bind_run (hb.chr (i := 1) (b := 93) rfl) ?_
      rfl
    · simp only [if_true]
      refine bind_run (a := s.heap.next) (s' := ⟨s.idx, grown s.heap (textNode b!" "), b!"parse_array_decl" :: s.scope⟩) ?_ ?_
      · show (untypedStr e.cfg s.heap b!" ").bind _ = _
        unfold untypedStr guardName
        rw [if_neg (by decide), finish_eq hn]
        rfl
      · exact bind_run heat rfl

/-! ## The value -/

theorem braceInit_none (h : Here e s (t :: more) rest) (hc : Code t) (ht : t.type ≠ .BraceCurly_Open) (v : Nat) : braceInit v e s = .ok (v, s) := by
  unfold braceInit
  refine bind_run (h.cur hc.fmt) ?_
  simp only [ht, if_false]
  rfl

theorem parenInit_none (h : Here e s (t :: more) rest) (hc : Code t) (ht : t.type ≠ .Paren_Open) (v : Nat) : parenInit v e s = .ok ((v, false), s) := by
  unfold parenInit
  refine bind_run (h.cur hc.fmt) ?_
  simp only [ht, if_false]
  rfl

theorem bitfield_none (h : Here e s (t :: more) rest) (hc : Code t) (ht : t.type ≠ .Assign_Classifer) : bitfield e s = .ok (0, s) := by
  unfold bitfield
  refine bind_run (h.cur hc.fmt) ?_
  simp only [ht, if_false]
  rfl

/-- The nodes for the value and the size of a bit field, and how they are printed. -/
inductive InitIn (a b : Nat) (h : Heap) : Nat → Bool → Nat → Bytes → Prop where
  | none : InitIn a b h 0 false 0 []
  | value {q x} : a ≤ q → q < b → h.cell q = textNode x → InitIn a b h q false 0 (b!" = " ++ x)
  | parens {q x} : a ≤ q → q < b → h.cell q = textNode x → InitIn a b h q true 0 (b!"( " ++ x ++ b!"  )")
  | bits {q x} : a ≤ q → q < b → h.cell q = textNode x → InitIn a b h 0 false q (b!" : " ++ x)

theorem InitIn.agree {a b a' b' : Nat} {h g : Heap} {p q : Nat} {k : Bool} (hs : InitIn a b h p k q x) (ha : Agree a b h g) (h1 : a' ≤ a) (h2 : b ≤ b') :
    InitIn a' b' g p k q x := by
  cases hs with
  | none => exact .none
  | value h3 h4 h5 => exact .value (by omega) (by omega) ((ha _ h3 h4).2.trans h5)
  | parens h3 h4 h5 => exact .parens (by omega) (by omega) ((ha _ h3 h4).2.trans h5)
  | bits h3 h4 h5 => exact .bits (by omega) (by omega) ((ha _ h3 h4).2.trans h5)

/-- The steps over the value. -/
def InitRuns (e : Env) (s : St) (vs : List Tok) (x : Bytes) : Prop :=
  ∃ t x1 s1 x2 s2 x3 k3 s3 x4 h', cur e s = .ok (t, s) ∧ (if has t Lex.fAssign = true then assignment else pure 0) e s = .ok (x1, s1) ∧
    braceInit x1 e s1 = .ok (x2, s2) ∧ parenInit x2 e s2 = .ok ((x3, k3), s3) ∧ bitfield e s3 = .ok (x4, ⟨s.idx + vs.length, h', s.scope⟩) ∧
    Kept s.heap h' ∧ s.heap.next ≤ h'.next ∧ InitIn s.heap.next h'.next h' x3 k3 x4 x

theorem TokIs.code {c : Bytes} (h : TokIs c t ty fl x) (h1 : ty ≠ .NewLine) (h2 : ty ≠ .Comment) : Code t := ⟨by rw [h.type]; exact h1, by rw [h.type]; exact h2⟩

theorem TokIs.has {c : Bytes} (h : TokIs c t ty fl x) (f : Nat) : Parse.has t f = (fl &&& f == f) := by unfold Parse.has; rw [h.flags]

theorem assignment_run {q : Tok} {vs : List Tok} (hq : TokIs e.mem q .Operator 3 b!"=") (hv : Value vs) (hx : UpTo e.mem vs u x) (hne : x ≠ [])
    (hu : TokIs e.mem u .Statement_End 512 b!";") (hn : 0 < s.heap.next) (h : Here e s (q :: vs ++ u :: more) rest) :
    assignment e s = .ok (s.heap.next, ⟨s.idx + (q :: vs).length, grown s.heap (textNode x), s.scope⟩) := by
  rw [List.cons_append] at h
  have heat := h.eat
  rw [hq.type] at heat
  obtain ⟨f, hf, hlen, hsl⟩ := hx.text
  obtain ⟨vl, rfl⟩ : ∃ vl, vs = f :: vl := by
    cases vs with
    | nil => cases hf
    | cons g vl => cases hf; exact ⟨vl, rfl⟩
  obtain ⟨hfc, hfs, -⟩ := hv [] f vl rfl
  have h1 := h.tail
  have huc := hu.code (by decide) (by decide)
  have hl := loop_toks (e := e) (s := s.adv 1) (rest := rest) (vs := f :: vl) (tail := u :: more) (x0 := (0 : Int))
    (step := fun (level : Int) => do
      if ← leftAnd (·.type ≠ .Statement_End) then
        let t ← cur
        if t.type = .Comma ∧ ¬ level > 0 then return (false, level)
        else
          eat t.type
          return (true,
            if t.type = .BraceCurly_Open ∨ t.type = .Paren_Open then level + 1
            else if t.type = .BraceCurly_Close ∨ t.type = .Paren_Close then level - 1 else level)
      else return (false, level))
    (nx := fun n t => if t.type ∈ [TokType.BraceCurly_Open, .Paren_Open] then n + 1 else if t.type ∈ [TokType.BraceCurly_Close, .Paren_Close] then n - 1 else n)
    (by
      intro pre t l s hp h
      obtain ⟨h2, h3, h4⟩ := hv pre t l hp
      rw [depth_foldl]
      refine bind_run (h.leftAnd h2.fmt _) ?_
      simp only [ne_eq, h3, not_false_eq_true, decide_true, if_true]
      refine bind_run (h.cur h2.fmt) ?_
      rw [if_neg (fun hh => hh.2 (h4 hh.1))]
      refine bind_run h.eat ?_
      simp only [List.mem_cons, List.not_mem_nil, or_false]
      rfl)
    (by
      intro s h
      refine bind_run (h.leftAnd huc.fmt _) ?_
      simp only [ne_eq, hu.type, not_true_eq_false, decide_false, Bool.false_eq_true, if_false]
      rfl) h1
  have h2 := h1.advN
  have hidx : (s.adv 1).adv (f :: vl).length = ⟨s.idx + (q :: f :: vl).length, s.heap, s.scope⟩ := by
    rw [St.adv_adv, List.length_cons (a := q), Nat.add_comm 1]
    rfl
  rw [hidx] at h2 hl
  unfold assignment
  refine bind_run heat ?_
  refine bind_run (h1.cur hfc.fmt) ?_
  rw [if_neg hfs]
  refine bind_run hl ?_
  refine bind_run h2.left ?_
  simp only [if_true]
  refine bind_run (h2.cur huc.fmt) ?_
  have : (Txt.mk f.start ((span f.start u).len - 1)) = ⟨f.start, x.length⟩ := by
    have := hu.len
    simp only [List.length_cons, List.length_nil] at this
    unfold span
    simp only [Txt.mk.injEq, true_and]
    omega
  rw [this]
  exact untyped_run hsl hne hn

theorem init_run {vs : List Tok} (hi : InitToks e.mem u x vs) (hu : TokIs e.mem u .Statement_End 512 b!";") (hn : 0 < s.heap.next)
    (h : Here e s (vs ++ u :: more) rest) : InitRuns e s vs x := by
  have huc := hu.code (by decide) (by decide)
  have hu1 : u.type ≠ .BraceCurly_Open := by rw [hu.type]; decide
  have hu2 : u.type ≠ .Paren_Open := by rw [hu.type]; decide
  have hu3 : u.type ≠ .Assign_Classifer := by rw [hu.type]; decide
  cases hi with
  | none =>
    refine ⟨u, 0, s, 0, s, 0, false, s, 0, s.heap, h.cur huc.fmt, ?_, braceInit_none h huc hu1 0, parenInit_none h huc hu2 0, bitfield_none h huc hu3, Kept.refl _,
      Nat.le_refl _, .none⟩
    rw [hu.has]
    rfl
  | @value q vs x hq hv hx hne =>
    have ha := assignment_run hq hv hx hne hu hn h
    have h1 : Here e (⟨s.idx + (q :: vs).length, grown s.heap (textNode x), s.scope⟩) (u :: more) rest := h.advN.at rfl
    refine ⟨q, s.heap.next, _, s.heap.next, _, s.heap.next, false, _, 0, _, h.cur (hq.code (by decide) (by decide)).fmt, ?_, braceInit_none h1 huc hu1 _,
      parenInit_none h1 huc hu2 _, bitfield_none h1 huc hu3, kept_grown _ _, Nat.le_succ _, .value (Nat.le_refl _) (Nat.lt_succ_self _) (by simp [grown])⟩
    rw [hq.has]
    exact ha
  | @braces o vs z x ho hv hz hx hne =>
    have hoc := ho.code (by decide) (by decide)
    have hzc := hz.code (by decide) (by decide)
    have h0 : Here e s (o :: (vs ++ z :: u :: more)) rest := by simpa using h
    have heo := h0.eat
    rw [ho.type] at heo
    have h1 := h0.tail
    have h2 := h1.advN
    have hez := h2.eat
    rw [hz.type] at hez
    have h3 := h2.tail
    have hidx : ((s.adv 1).adv vs.length).adv 1 = ⟨s.idx + (o :: vs ++ [z]).length, s.heap, s.scope⟩ := by
      simp [St.adv, Nat.add_assoc]
      omega
    rw [hidx] at h3 hez
    have h4 := h3.heap (grown s.heap (textNode x)) s.scope
    obtain ⟨f, l, hf, -, -, hsl⟩ := hx.text
    cases hf
    refine ⟨o, 0, s, s.heap.next, ⟨s.idx + (o :: vs ++ [z]).length, grown s.heap (textNode x), s.scope⟩, s.heap.next, false, _, 0, _, h0.cur hoc.fmt, ?_, ?_,
      parenInit_none h4 huc hu2 _, bitfield_none h4 huc hu3, kept_grown _ _, Nat.le_succ _, .value (Nat.le_refl _) (Nat.lt_succ_self _) (by simp [grown])⟩
    · rw [ho.has]
      rfl
    · unfold braceInit
      refine bind_run (h0.cur hoc.fmt) ?_
      simp only [ho.type, if_true]
      refine bind_run heo ?_
      refine bind_run (skipGroup_run hv (by decide) hz.type hzc h1) ?_
      refine bind_run hez ?_
      refine bind_run (upToPrev_run (s := s) (ts := vs ++ [z]) (more := u :: more) (by simpa using h) hx (by simp)) ?_
      exact untyped_run hsl hne hn
  | @parens o vs z x ho hv hz hx hne =>
    have hoc := ho.code (by decide) (by decide)
    have hzc := hz.code (by decide) (by decide)
    have h0 : Here e s (o :: (vs ++ z :: u :: more)) rest := by simpa using h
    have heo := h0.eat
    rw [ho.type] at heo
    have h1 := h0.tail
    have h2 := h1.advN
    have hidx : (s.adv 1).adv vs.length = ⟨s.idx + (1 + vs.length), s.heap, s.scope⟩ := by rw [St.adv_adv]; rfl
    rw [hidx] at h2
    have h2' := h2.heap (grown s.heap (textNode x)) s.scope
    have hez := h2'.eat
    rw [hz.type] at hez
    have h4 := h2'.tail
    have hidx2 : (St.mk (s.idx + (1 + vs.length)) (grown s.heap (textNode x)) s.scope).adv 1 =
        ⟨s.idx + (o :: vs ++ [z]).length, grown s.heap (textNode x), s.scope⟩ := by
      simp [St.adv, Nat.add_assoc]
      omega
    rw [hidx2] at h4 hez
    obtain ⟨f, l, hf, -, -, hsl⟩ := hx.text
    obtain ⟨vl, rfl⟩ : ∃ vl, vs = f :: vl := by
      cases vs with
      | nil => cases hf
      | cons g vl => cases hf; exact ⟨vl, rfl⟩
    obtain ⟨hfc, -⟩ := hv.1 [] f vl rfl
    refine ⟨o, 0, s, 0, s, s.heap.next, true, _, 0, _, h0.cur hoc.fmt, ?_, braceInit_none h0 hoc (by rw [ho.type]; decide) 0, ?_,
      bitfield_none h4 huc hu3, kept_grown _ _, Nat.le_succ _, .parens (Nat.le_refl _) (Nat.lt_succ_self _) (by simp [grown])⟩
    · rw [ho.has]
      rfl
    · unfold parenInit
      refine bind_run (h0.cur hoc.fmt) ?_
      simp only [ho.type, if_true]
      refine bind_run heo ?_
      refine bind_run (h1.cur hfc.fmt) ?_
      refine bind_run (skipGroup_run hv (by decide) hz.type hzc h1) ?_
      rw [hidx]
      refine bind_run (upToPrev_run (s := s.adv 1) (ts := vl) (by simpa using h1) hx (by simp; omega)) ?_
      refine bind_run (untyped_run hsl hne hn) ?_
      exact bind_run hez rfl

theorem bits_run {o : Tok} {vs : List Tok} (ho : TokIs e.mem o .Assign_Classifer 0 b!":") (hv : ∀ t ∈ vs, Code t ∧ t.type ≠ .Statement_End)
    (hx : Spans e.mem vs x) (hne : x ≠ []) (hu : TokIs e.mem u .Statement_End 512 b!";") (hn : 0 < s.heap.next)
    (h : Here e s (o :: vs ++ u :: more) rest) : InitRuns e s (o :: vs) (b!" : " ++ x) := by
  have huc := hu.code (by decide) (by decide)
  have hoc := ho.code (by decide) (by decide)
  rw [List.cons_append] at h
  have heo := h.eat
  rw [ho.type] at heo
  have h1 := h.tail
  have hidx : (s.adv 1).adv vs.length = ⟨s.idx + (o :: vs).length, s.heap, s.scope⟩ := by
    rw [St.adv_adv, List.length_cons, Nat.add_comm 1]
    rfl
  obtain ⟨f, l, hf, -, -, hsl⟩ := hx.text
  obtain ⟨vl, rfl⟩ : ∃ vl, vs = f :: vl := by
    cases vs with
    | nil => cases hf
    | cons g vl => cases hf; exact ⟨vl, rfl⟩
  obtain ⟨hfc, hfs⟩ := hv f List.mem_cons_self
  refine ⟨o, 0, s, 0, s, 0, false, s, s.heap.next, grown s.heap (textNode x), h.cur hoc.fmt, ?_, braceInit_none h hoc (by rw [ho.type]; decide) 0,
    parenInit_none h hoc (by rw [ho.type]; decide) 0, ?_, kept_grown _ _, Nat.le_succ _, .bits (Nat.le_refl _) (Nat.lt_succ_self _) (by simp [grown])⟩
  · rw [ho.has]
    rfl
  · unfold bitfield
    refine bind_run (h.cur hoc.fmt) ?_
    simp only [ho.type, if_true]
    refine bind_run heo ?_
    refine bind_run (h1.cur hfc.fmt) ?_
    rw [if_neg hfs]
    refine bind_run (skipTo_run hv hu.type huc h1) ?_
    rw [hidx]
    refine bind_run (upToPrev_run (s := s.adv 1) (ts := vl) (by simpa using h1) hx (by simp; omega)) ?_
    exact untyped_run hsl hne hn

end Verif.Parse
