import Verif.Proof.ReadRecord
import Verif.Props.Interfaces
/-!
# Running the parser on the bases of a struct
-/
namespace Verif.Parse
open Verif.Lex (Tok)
open Verif.Ast P
open Verif.Ser hiding Env boundsText isNext

variable {e : Env} {s : St} {t u : Tok} {ts vs more rest : List Tok} {x y : Bytes} {a b n : Nat} {ty : CodeType} {k : RecordKind}

/-- The node of a base. -/
def baseNode (x : Bytes) : Node := { type := .Typename, name := x }

/-- From `p` on, one after the other, stand the bases `xs`. -/
def BaseRow (h : Heap) : Nat → List Bytes → Prop
  | _, [] => True
  | p, x :: xs => h.cell p = baseNode x ∧ BaseRow h (p + 1) xs

theorem BaseRow.agree {h g : Heap} : ∀ {xs : List Bytes} {p : Nat}, BaseRow h p xs → (∀ q, p ≤ q → q < p + xs.length → g.cell q = h.cell q) → BaseRow g p xs
  | [], _, _, _ => trivial
  | x :: xs, p, ⟨h1, h2⟩, ha => by
    refine ⟨by rw [ha p (Nat.le_refl _) (by simp), h1], BaseRow.agree h2 fun q w1 w2 => ha q (by omega) (by simp only [List.length_cons]; omega)⟩

theorem defType_base {c : Cfg} {h : Heap} (hn : 0 < h.next) (hx : x ≠ []) : defType c h x {} = .ok (h.next, grown h (baseNode x)) := by
  unfold defType guardName guardOpt
  simp only [hx, if_false, if_true]
  exact finish_eq hn _

theorem base_code (hn : 0 < s.heap.next) (hx : x ≠ []) : code (fun c h => defType c h x {}) e s = .ok (s.heap.next, ⟨s.idx, grown s.heap (baseNode x), s.scope⟩) := by
  show (defType e.cfg s.heap x {}).bind _ = _
  rw [defType_base hn hx]
  rfl

/-- The name of a base. -/
theorem base_name {ns : List Tok} {β : Type} {F : Nat → P β} {o : Res (β × St)} (hN : QualToks e.mem x ns) (ht : NameEnds e.mem t) (hn : 0 < s.heap.next) (h : Here e s (ns ++ t :: more) rest)
    (hF : F s.heap.next e ⟨s.idx + ns.length, grown s.heap (baseNode x), s.scope⟩ = o) :
    (do let name ← Parse.bytes (← identText); let i ← code fun c h => defType c h name {}; F i : P β) e s = o := by
  obtain ⟨i, il, hi1, hi2, r4⟩ := identifier_run hN h ht
  have hne : x ≠ [] := by cases hN; assumption
  unfold identText
  refine bind_eq (bind_run r4 (pureP _ _ _)) ?_
  refine bind_eq (spanBytes hi2) ?_
  exact bind_eq (base_code (s := ⟨s.idx + ns.length, s.heap, s.scope⟩) hn hne) hF

/-- What `parents` does behind the access. -/
def turnBase (is : List Nat) : P (Bool × List Nat) := do
  let name ← Parse.bytes (← identText)
  let i ← code fun c h => defType c h name {}
  if is.length ≥ 4 then ub else return (true, is ++ [i])

def baseTurn (is : List Nat) : P (Bool × List Nat) := do
  if ← check .Comma then
    eat .Comma
    let t ← cur
    if has t Lex.fAccessSpecifier then
      eatAny
      turnBase is
    else turnBase is
  else return (false, is)

def afterAccess (access : Nat) : P (Nat × Nat × List Nat) := do
  let name ← Parse.bytes (← identText)
  let parent ← code fun c h => defType c h name {}
  let is ← loop baseTurn []
  return (parent, access, is)

theorem parents_eq : parents = (do
    if ← check .Assign_Classifer then
      eat .Assign_Classifer
      let t ← cur
      if has t Lex.fAccessSpecifier then
        eatAny
        afterAccess (accessOf t.type)
      else afterAccess 0
    else return (0, 0, [])) := rfl

/-- The number for the access. -/
def accessNum (x : Bytes) : Nat := if x = b!"public" then 3 else if x = b!"private" then 1 else 0

theorem access_run {as : List Tok} {β : Type} {F : Nat → P β} {o : Res (β × St)} (hA : AccessToks x as) (ht : t.type = .Identifier) (hf : t.flags = 0) (h : Here e s (as ++ t :: more) rest)
    (hF : F (accessNum x) e ⟨s.idx + as.length, s.heap, s.scope⟩ = o) :
    (do let t ← cur
        if has t Lex.fAccessSpecifier then
          eatAny
          F (accessOf t.type)
        else F 0 : P β) e s = o := by
  have key : ∀ {v : Tok} {vs : List Tok}, (v.type = .Access_Public ∨ v.type = .Access_Private) → v.flags = 128 → Here e s (v :: vs) rest → F (accessOf v.type) e (s.adv 1) = o →
      (do let t ← cur
          if has t Lex.fAccessSpecifier then
            eatAny
            F (accessOf t.type)
          else F 0 : P β) e s = o := by
    intro v vs hv hvf hh hF
    have hfm : isFmt v = false := by
      rcases hv with hv | hv <;> exact isFmt_of_type hv (by decide) (by decide)
    have hhas : has v Lex.fAccessSpecifier = true := by
      unfold has
      rw [hvf]
      rfl
    refine bind_eq (hh.cur hfm) ?_
    rw [hhas]
    simp only [if_true]
    refine bind_eq (x := ()) (s' := s.adv 1) ?_ hF
    unfold eatAny
    exact bind_run (hh.cur hfm) hh.eat
  cases hA with
  | none =>
    have hfm : isFmt t = false := isFmt_of_type ht (by decide) (by decide)
    have hhas : has t Lex.fAccessSpecifier = false := by
      unfold has
      rw [hf]
      rfl
    refine bind_eq (h.cur hfm) ?_
    rw [hhas]
    simp only [Bool.false_eq_true, if_false]
    exact hF
  | pub h1 h2 => exact key (.inl h1) h2 h (by rw [h1]; exact hF)
  | pri h1 h2 => exact key (.inr h1) h2 h (by rw [h1]; exact hF)

theorem QualToks.start {c : Bytes} {ns : List Tok} (h : QualToks c x ns) : ∃ i il, ns = i :: il ∧ i.type = .Identifier ∧ i.flags = 0 := by
  obtain ⟨i, il, z, h1, h2⟩ := h.first
  exact ⟨i, il, h1, h2.1.type, h2.1.flags⟩

theorem nameEnds_comma {c : Bytes} (h : u.type = .Comma) : NameEnds c u :=
  ⟨isFmt_of_type h (by decide) (by decide), by rw [h]; decide, fun hh => by rw [h] at hh; cases hh⟩

theorem moreBases_run {xs : List Bytes} (hM : MoreBases e.mem xs ts) (ht : NameEnds e.mem t) (htc : t.type ≠ .Comma) :
    ∀ {s : St} {is : List Nat}, 0 < s.heap.next → is.length + xs.length ≤ 4 → Here e s (ts ++ t :: more) rest →
    ∃ h', Turns baseTurn e (xs.length + 1) is s (is ++ List.range' s.heap.next xs.length) ⟨s.idx + ts.length, h', s.scope⟩ ∧ Kept s.heap h' ∧
      h'.next = s.heap.next + xs.length ∧ BaseRow h' s.heap.next xs := by
  induction hM with
  | nil =>
    intro s is hn hl h
    refine ⟨s.heap, .stop ?_, Kept.refl _, rfl, trivial⟩
    rw [List.nil_append] at h
    unfold baseTurn
    refine bind_run (h.check ht.fmt _) ?_
    simp only [htc, decide_false, Bool.false_eq_true, if_false, List.length_nil, List.range'_zero, List.append_nil]
    rfl
  | @cons v ax as name ns xs us hv hA hap hN hM ih =>
    intro s is hn hl h
    simp only [List.length_cons] at hl
    have h : Here e s (v :: (as ++ (ns ++ (us ++ t :: more)))) rest := by simpa using h
    obtain ⟨i, il, hi1, hi2, hi3⟩ := hN.start
    have heat := h.eat
    rw [hv] at heat
    have g1 : Here e (s.adv 1) (as ++ (ns ++ (us ++ t :: more))) rest := h.tail
    have g1' : Here e (s.adv 1) (as ++ i :: (il ++ (us ++ t :: more))) rest := by rw [hi1] at g1; exact g1
    have g2 : Here e ⟨s.idx + 1 + as.length, s.heap, s.scope⟩ (ns ++ (us ++ t :: more)) rest := g1.advN.at rfl
    obtain ⟨w, wl, hw1, hw2⟩ : ∃ w wl, us ++ t :: more = w :: wl ∧ NameEnds e.mem w := by
      cases hM with
      | nil => exact ⟨t, more, rfl, ht⟩
      | cons hu _ _ _ _ => exact ⟨_, _, rfl, nameEnds_comma hu⟩
    have hne : name ≠ [] := by cases hN; assumption
    have g3 : Here e ⟨s.idx + 1 + as.length + ns.length, grown s.heap (baseNode name), s.scope⟩ (us ++ t :: more) rest := (g2.advN.heap _ _).at rfl
    obtain ⟨h', r1, r2, r3, r4⟩ := ih (s := ⟨s.idx + 1 + as.length + ns.length, grown s.heap (baseNode name), s.scope⟩) (is := is ++ [s.heap.next]) (Nat.succ_pos _)
      (by simp only [List.length_append, List.length_cons, List.length_nil]; omega) g3
    have r3 : h'.next = s.heap.next + 1 + xs.length := r3
    have r4 : BaseRow h' (s.heap.next + 1) xs := r4
    refine ⟨h', .go (s' := ⟨s.idx + 1 + as.length + ns.length, grown s.heap (baseNode name), s.scope⟩) (y := is ++ [s.heap.next]) ?_ ?_, (kept_grown _ _).trans r2, ?_, ⟨?_, r4⟩⟩
    · unfold baseTurn
      refine bind_run (h.check (isFmt_of_type hv (by decide) (by decide)) _) ?_
      simp only [hv, decide_true, if_true]
      refine bind_run heat ?_
      refine access_run (F := fun _ => turnBase is) hA hi2 hi3 g1' ?_
      unfold turnBase
      refine base_name (s := ⟨(s.adv 1).idx + as.length, s.heap, s.scope⟩) hN hw2 hn (by rw [← hw1]; exact g2) ?_
      rw [iteP, if_neg (by omega)]
      rfl
    · have e1 : is ++ List.range' s.heap.next (name :: xs).length = is ++ [s.heap.next] ++ List.range' (s.heap.next + 1) xs.length := by
        rw [List.length_cons, List.range'_succ]
        simp
      have e2 : s.idx + (v :: as ++ ns ++ us).length = s.idx + 1 + as.length + ns.length + us.length := by
        simp only [List.cons_append, List.length_cons, List.length_append]
        omega
      rw [e1, e2]
      exact r1
    · simp only [List.length_cons]
      omega
    · have := r2 s.heap.next ⟨hn, Nat.lt_succ_self _⟩
      rw [this.2]
      simp [grown]

/-- What the bases of a struct become: the access, the first one, the others, and how all is printed. -/
structure Bases (c : Nat) (name : Bytes) (xs : List Bytes) (y : Bytes) : Prop where
  acc : c ≠ 2
  len : xs.length ≤ 4
  text : y = b!" : " ++ accessText (if xs = [] then c else 3) ++ b!" " ++ name ++ (if xs = [] then [] else b!"\n") ++ wrapped b!", " b!"" xs

/-- The bases. -/
theorem parents_run (hB : BasesToks e.mem y ts) (ht : NameEnds e.mem t) (htc : t.type ≠ .Comma) (hn : 0 < s.heap.next) (h : Here e s (ts ++ t :: more) rest) :
    ∃ c name xs h', parents e s = .ok ((s.heap.next, c, List.range' (s.heap.next + 1) xs.length), ⟨s.idx + ts.length, h', s.scope⟩) ∧ Bases c name xs y ∧
      Kept s.heap h' ∧ h'.next = s.heap.next + (name :: xs).length ∧ BaseRow h' s.heap.next (name :: xs) ∧ ∀ z ∈ name :: xs, z ≠ [] := by
  have key : ∀ {q : Tok} {ax name : Bytes} {as ns : List Tok} {xs : List Bytes} {us : List Tok}, q.type = .Assign_Classifer → AccessToks ax as → QualToks e.mem name ns →
      MoreBases e.mem xs us → xs.length ≤ 4 → Here e s (q :: (as ++ (ns ++ (us ++ t :: more)))) rest →
      ∃ h', parents e s = .ok ((s.heap.next, accessNum ax, List.range' (s.heap.next + 1) xs.length), ⟨s.idx + (1 + as.length + ns.length + us.length), h', s.scope⟩) ∧
        Kept s.heap h' ∧ h'.next = s.heap.next + (name :: xs).length ∧ BaseRow h' s.heap.next (name :: xs) ∧ ∀ z ∈ name :: xs, z ≠ [] := by
    intro q ax name as ns xs us hq hA hN hM hl h
    obtain ⟨i, il, hi1, hi2, hi3⟩ := hN.start
    have heat := h.eat
    rw [hq] at heat
    have g1 : Here e (s.adv 1) (as ++ (ns ++ (us ++ t :: more))) rest := h.tail
    have g1' : Here e (s.adv 1) (as ++ i :: (il ++ (us ++ t :: more))) rest := by rw [hi1] at g1; exact g1
    have g2 : Here e ⟨s.idx + 1 + as.length, s.heap, s.scope⟩ (ns ++ (us ++ t :: more)) rest := g1.advN.at rfl
    obtain ⟨w, wl, hw1, hw2⟩ : ∃ w wl, us ++ t :: more = w :: wl ∧ NameEnds e.mem w := by
      cases hM with
      | nil => exact ⟨t, more, rfl, ht⟩
      | cons hu _ _ _ _ => exact ⟨_, _, rfl, nameEnds_comma hu⟩
    have g3 : Here e ⟨s.idx + 1 + as.length + ns.length, grown s.heap (baseNode name), s.scope⟩ (us ++ t :: more) rest := (g2.advN.heap _ _).at rfl
    obtain ⟨h', r1, r2, r3, r4⟩ := moreBases_run hM ht htc (s := ⟨s.idx + 1 + as.length + ns.length, grown s.heap (baseNode name), s.scope⟩) (is := []) (Nat.succ_pos _) (by simpa using hl) g3
    have r3 : h'.next = s.heap.next + 1 + xs.length := r3
    have hlen := h.length_le
    have hxl : ∀ {xs : List Bytes} {us : List Tok}, MoreBases e.mem xs us → xs.length ≤ us.length := by
      intro xs us hM
      induction hM with
      | nil => exact Nat.le_refl _
      | cons _ _ _ _ _ ih =>
        simp only [List.cons_append, List.length_cons, List.length_append]
        omega
    have := hxl hM
    simp only [List.length_cons, List.length_append] at hlen
    refine ⟨h', ?_, (kept_grown _ _).trans r2, by simp only [List.length_cons]; omega, ⟨?_, r4⟩, ?_⟩
    · rw [parents_eq]
      refine bind_run (h.check (isFmt_of_type hq (by decide) (by decide)) _) ?_
      simp only [hq, decide_true, if_true]
      refine bind_run heat ?_
      refine access_run (F := afterAccess) hA hi2 hi3 g1' ?_
      unfold afterAccess
      refine base_name (s := ⟨(s.adv 1).idx + as.length, s.heap, s.scope⟩) hN hw2 hn (by rw [← hw1]; exact g2) ?_
      refine bind_eq (r1.loop (by omega)) ?_
      rw [pureP, List.nil_append]
      congr 3
      simp only [St.adv]
      omega
    · have := r2 s.heap.next ⟨hn, Nat.lt_succ_self _⟩
      rw [this.2]
      simp [grown]
    · have hxs : ∀ {xs : List Bytes} {us : List Tok}, MoreBases e.mem xs us → ∀ z ∈ xs, z ≠ [] := by
        intro xs us hM
        induction hM with
        | nil => intro _ hz; cases hz
        | cons _ _ _ hN _ ih =>
          intro z hz
          rcases List.mem_cons.1 hz with rfl | hz
          · cases hN; assumption
          · exact ih z hz
      intro z hz
      rcases List.mem_cons.1 hz with rfl | hz
      · cases hN; assumption
      · exact hxs hM z hz
  have acc : ∀ {ax : Bytes} {as : List Tok}, AccessToks ax as → accessNum ax ≠ 2 ∧ accessText (accessNum ax) = ax := by
    intro ax as hA
    cases hA <;> exact ⟨by decide, by decide⟩
  cases hB with
  | @one q ax as name ns hq hA hN =>
    obtain ⟨h', r1, r2⟩ := key (xs := []) (us := []) hq.type hA hN .nil (by simp) (by simpa using h)
    refine ⟨accessNum ax, name, [], h', ?_, ⟨(acc hA).1, by simp, ?_⟩, r2⟩
    · rw [r1]
      congr 3
      simp only [List.cons_append, List.length_cons, List.length_append, List.length_nil]
      omega
    · simp only [if_true, (acc hA).2, wrapped, List.flatMap_nil, List.append_nil]
  | @more q ax as name ns xs us hq hA hap hN hM hne hl =>
    obtain ⟨h', r1, r2⟩ := key hq.type hA hN hM hl (by simpa using h)
    refine ⟨accessNum ax, name, xs, h', ?_, ⟨(acc hA).1, hl, ?_⟩, r2⟩
    · rw [r1]
      congr 3
      simp only [List.cons_append, List.length_cons, List.length_append]
      omega
    · simp [hne, wrapped, accessText]

/-! ## A struct with bases -/

theorem linked_of {h : Heap} : ∀ {l : List Nat} {p : Nat}, Ast.NullChain h p l → Linked h p l
  | [], _, c => c
  | _ :: _, _, ⟨c1, c2, c3⟩ => ⟨c1, c2, linked_of c3⟩

/-- The node of a struct with bases. -/
def derivedNode (name : Bytes) (sq body acc base : Nat) (xs : List Bytes) : Node :=
  { type := .Struct, name := name, specs := sq, body := body, num := if xs = [] then (acc : Int) else 3, typ := base }

theorem BaseRow.cells {h : Heap} : ∀ {xs : List Bytes} {p : Nat}, BaseRow h p xs → ∀ q, p ≤ q → q < p + xs.length → ∃ x ∈ xs, h.cell q = baseNode x
  | [], _, _, _, h1, h2 => by simp only [List.length_nil] at h2; omega
  | x :: xs, p, ⟨h1, h2⟩, q, w1, w2 => by
    by_cases hq : q = p
    · exact ⟨x, List.mem_cons_self, hq ▸ h1⟩
    · obtain ⟨z, z1, z2⟩ := BaseRow.cells h2 q (by omega) (by simp only [List.length_cons] at w2; omega)
      exact ⟨z, List.mem_cons_of_mem _ z1, z2⟩

/-- As `BaseRow`, but the nodes may have successors. -/
def ChainRow (h : Heap) : Nat → List Bytes → Prop
  | _, [] => True
  | p, x :: xs => (∃ k, h.cell p = { baseNode x with back := k }) ∧ ChainRow h (p + 1) xs

theorem ChainRow.of {g h : Heap} : ∀ {xs : List Bytes} {p : Nat}, BaseRow g p xs → (∀ q, p ≤ q → q < p + xs.length → h.cell q = { g.cell q with back := (h.cell q).back }) → ChainRow h p xs
  | [], _, _, _ => trivial
  | x :: xs, p, ⟨h1, h2⟩, ha => by
    refine ⟨⟨(h.cell p).back, ?_⟩, ChainRow.of h2 fun q w1 w2 => ha q (by omega) (by simp only [List.length_cons]; omega)⟩
    rw [← h1]
    exact ha p (Nat.le_refl _) (by simp)

theorem ChainRow.agree {h g : Heap} : ∀ {xs : List Bytes} {p : Nat}, ChainRow h p xs → (∀ q, p ≤ q → q < p + xs.length → g.cell q = h.cell q) → ChainRow g p xs
  | [], _, _, _ => trivial
  | x :: xs, p, ⟨⟨k, h1⟩, h2⟩, ha => by
    refine ⟨⟨k, by rw [ha p (Nat.le_refl _) (by simp), h1]⟩, ChainRow.agree h2 fun q w1 w2 => ha q (by omega) (by simp only [List.length_cons]; omega)⟩

theorem defStruct_bases {h : Heap} {name nm : Bytes} {xs : List Bytes} {sq base acc : Nat} {c : Cfg} (hb : h.Valid b) (ht : (h.cell b).type = .Struct_Body) (hr : BaseRow h base (nm :: xs))
    (h0 : 0 < base) (hle : base + (nm :: xs).length ≤ h.next) :
    ∃ h', defStruct (h.next + 1) c h name { body := b, parent := base, parentAccess := acc, interfaces := List.range' (base + 1) xs.length, specifiers := sq } = .ok (h.next, h') ∧
      h'.next = h.next + 1 ∧ h'.cell h.next = derivedNode name sq b acc base xs ∧ (∀ q, q < base ∨ base + (nm :: xs).length ≤ q → q < h.next → h'.cell q = h.cell q) ∧
      Ast.NullChain h' base (base :: List.range' (base + 1) xs.length) ∧ ChainRow h' base (nm :: xs) := by
  simp only [List.length_cons] at hle
  have hb0 : b ≠ 0 := Nat.ne_of_gt hb.1
  have hvb : h.Valid base := ⟨h0, by omega⟩
  have hN0 : base ≠ 0 := by omega
  obtain ⟨N, hN⟩ : ∃ N : Node, N = { type := .Struct, name := name, specs := sq, num := (acc : Int), typ := base, body := b } := ⟨_, rfl⟩
  obtain ⟨g, hg⟩ : ∃ g, g = grown h N := ⟨_, rfl⟩
  have gn : g.next = h.next + 1 := by rw [hg]; rfl
  have gs : g.cell h.next = N := by rw [hg]; simp [grown]
  have go : ∀ q, q < h.next → g.cell q = h.cell q := fun q hq => by
    have : q ≠ h.next := by omega
    rw [hg]; simp [grown, this]
  have gr : BaseRow g base (nm :: xs) := hr.agree fun q _ w2 => go q (by simp only [List.length_cons] at w2; omega)
  have hback : ∀ q, base ≤ q → q < base + (nm :: xs).length → (g.cell q).back = 0 := fun q w1 w2 => by
    obtain ⟨x, -, hx⟩ := gr.cells q w1 w2
    rw [hx]
    rfl
  have hmem : ∀ q, q ∈ [base] ++ List.range' (base + 1) xs.length ↔ base ≤ q ∧ q < base + (nm :: xs).length := by
    intro q
    simp only [List.cons_append, List.nil_append, List.mem_cons, List.mem_range'_1, List.length_cons]
    omega
  have hcat : [base] ++ List.range' (base + 1) xs.length = List.range' base (nm :: xs).length := by
    rw [List.length_cons, List.range'_succ]
    rfl
  obtain ⟨h', e1, e2, e3, e4, e5, e6⟩ := C29_add_interfaces (fuel := h.next + 1) (self := h.next) (List.range' (base + 1) xs.length) (h := g) (l := [base]) ⟨by omega, by omega⟩
    (by
      intro y hy
      rw [List.mem_range'_1] at hy
      exact ⟨⟨by omega, by omega⟩, hback y (by omega) (by simp only [List.length_cons]; omega)⟩)
    (by simp) (by rw [hcat]; exact List.nodup_range')
    (by rw [hmem]; simp only [List.length_cons]; omega)
    (by rw [gs, hN]; exact ⟨rfl, ⟨h0, by omega⟩, hback base (Nat.le_refl _) (by simp)⟩)
    (by rw [hcat, List.length_range', List.length_cons]; omega)
  have hnext : h'.next = g.next := by
    have v1 := (e4 h.next).2 ⟨by omega, by omega⟩
    have v2 := mt (e4 g.next).1 (fun hh => Nat.lt_irrefl _ hh.2)
    have : ¬ g.next < h'.next := fun hh => v2 ⟨by omega, hh⟩
    have := v1.2
    omega
  refine ⟨h', ?_, by omega, ?_, ?_, ?_, ?_⟩
  · unfold defStruct guardOpt
    have hgp : h.get base = .ok (h.cell base) := get_ok hvb
    simp only [if_true, hb0, hN0, if_false, get_ok hb, hgp, Res.ok_bind]
    rw [if_pos (by rw [hr.1]; rfl), if_pos (by rw [ht]; rfl), finish_eq (by omega), Res.ok_bind]
    simp only []
    have : ({ next := h.next + 1, cell := fun q => if q = h.next then ({ type := .Struct, name := name, specs := sq, num := (acc : Int), typ := base, body := b } : Node) else h.cell q } : Heap) = g := by
      rw [hg, hN]
      rfl
    rw [this, e1, Res.ok_bind]
  · rw [e3, gs, hN]
    unfold derivedNode
    by_cases hx : xs = []
    · subst hx
      simp
    · have : List.range' (base + 1) xs.length ≠ [] := by
        intro hh
        exact hx (List.length_eq_zero_iff.1 (List.range'_eq_nil_iff.1 hh))
      simp [hx]
  · intro q w1 w2
    rw [e5 q (by omega) (by rw [hmem]; simp only [List.length_cons] at w1 ⊢; omega), go q w2]
  · rw [gs, hN] at e2
    exact e2
  · exact ChainRow.of gr fun q w1 w2 => e6 q ((hmem q).2 ⟨w1, w2⟩)

theorem base_prints {E : Ser.Env} {p j : Nat} (hv : E.h.Valid p) (hc : E.h.cell p = { baseNode x with back := j }) (hx : x ≠ []) (hf : Fits x) : Prints E .typename p x := by
  refine (C47_typename (l := []) hv hc (fun hh => absurd rfl hh) ?_ (.inl rfl)).1.print' ?_ hf
  · unfold SpecSlot
    simp [baseNode]
  · have hn : nameText E p = x := by rw [nameText_of (by rw [hc]; exact hx), hc]; rfl
    rw [hn]
    simp [attrText, optText, baseNode, tagWord, ifText]

theorem bases_print {E : Ser.Env} : ∀ {xs : List Bytes} {p : Nat}, (∀ q, p ≤ q → q < p + xs.length → E.h.Valid q) → ChainRow E.h p xs → (∀ z ∈ xs, z ≠ [] ∧ Fits z) →
    PrintAll E .typename (List.range' p xs.length) xs
  | [], _, _, _, _ => trivial
  | x :: xs, p, hv, ⟨⟨j, h1⟩, h2⟩, hx => by
    rw [List.length_cons, List.range'_succ]
    exact ⟨base_prints (hv p (Nat.le_refl _) (by simp)) h1 (hx x List.mem_cons_self).1 (hx x List.mem_cons_self).2,
      bases_print (fun q w1 w2 => hv q (by omega) (by simp only [List.length_cons]; omega)) h2 fun z hz => hx z (List.mem_cons_of_mem _ hz)⟩

theorem fits_wrapped : ∀ {xs : List Bytes}, Fits (wrapped b!", " b!"" xs) → ∀ z ∈ xs, Fits z
  | [], _, _, hz => by cases hz
  | x :: xs, hf, z, hz => by
    unfold wrapped at hf
    rw [List.flatMap_cons] at hf
    obtain ⟨f1, f2⟩ := Fits.append hf
    rcases List.mem_cons.1 hz with rfl | hz
    · exact (Fits.append (Fits.append f1).1).2
    · exact fits_wrapped f2 z hz

/-- A struct with bases as it is printed. -/
theorem derived_says {E : Ser.Env} {p sq body par f q base acc : Nat} {l : List Specifier} {name nm bx : Bytes} {xs : List Bytes} {h : Heap} (h0 : 0 < a) (ha : Agree a b h E.h)
    (hv : E.h.Valid p) (hp : E.h.cell p = { derivedNode name sq body acc base xs with parent := par, front := f, back := q })
    (hx : Neutral E par) (hs : SpecsIn a b h sq l) (hb : Stands .body a b h body y)
    (hB : Bases acc nm xs bx) (hab : a ≤ base) (hbb : base + (nm :: xs).length ≤ b) (hch : Ast.NullChain h base (base :: List.range' (base + 1) xs.length))
    (hrow : ChainRow h base (nm :: xs)) (hne : ∀ z ∈ nm :: xs, z ≠ []) :
    Says E .code p (b!"struct " ++ name ++ ifText (.Final ∈ l) b!" final" ++ bx ++ b!"\n{\n" ++ y ++ b!"\n};\n") := by
  intro hf
  obtain ⟨b1, b2, b3⟩ := hB
  simp only [List.length_cons] at hbb
  have hfy : Fits y := (Fits.append (Fits.append hf).1).2
  have hfb : Fits bx := (Fits.append (Fits.append (Fits.append (Fits.append hf).1).1).1).2
  have hfx : ∀ z ∈ nm :: xs, Fits z := by
    rw [b3] at hfb
    obtain ⟨f1, f2⟩ := Fits.append hfb
    intro z hz
    rcases List.mem_cons.1 hz with rfl | hz
    · exact (Fits.append (Fits.append f1).1).2
    · exact fits_wrapped f2 z hz
  have hsl := (SpecsIn.slot (E := E) (hs.agree ha (Nat.le_refl _) (Nat.le_refl _)) h0).1
  have hbp := hb.says E ha hfy
  have h3 : exportText (E.h.cell p) = [] := by rw [hp]; rfl
  have h4 : cmtText E (E.h.cell p) b!" // " b!"" b!"" = [] := by rw [hp]; rfl
  have h6 : attrText E (E.h.cell p) = [] := by rw [hp]; rfl
  have h7 : endText E (E.h.cell p) b!";\n" = b!";\n" := by
    unfold endText
    rw [hp]
    rw [if_neg]
    rintro ⟨g1, g2⟩
    rcases hx with hx | ⟨-, g3, g4⟩
    · exact g1 hx
    · exact g2.elim g3 g4
  have hvb : ∀ q, base ≤ q → q < base + (nm :: xs).length → E.h.Valid q := fun q w1 w2 => (ha q (by omega) (by simp only [List.length_cons] at w2; omega)).1
  have hrowE : ChainRow E.h base (nm :: xs) := hrow.agree fun q w1 w2 => (ha q (by omega) (by simp only [List.length_cons] at w2; omega)).2
  have hpa := bases_print hvb hrowE fun z hz => ⟨hne z hz, hfx z hz⟩
  rw [List.length_cons, List.range'_succ] at hpa
  have hchE : Ast.NullChain E.h base (base :: List.range' (base + 1) xs.length) := by
    have key : ∀ {l : List Nat} {p : Nat}, (∀ q ∈ l, a ≤ q ∧ q < b) → Ast.NullChain h p l → Ast.NullChain E.h p l := by
      intro l
      induction l with
      | nil => exact fun _ c => c
      | cons q l ih =>
        intro p hq ⟨c1, _, c3⟩
        have hq1 := ha q (hq q List.mem_cons_self).1 (hq q List.mem_cons_self).2
        exact ⟨c1, hq1.1, by rw [hq1.2]; exact ih (fun r hr => hq r (List.mem_cons_of_mem _ hr)) c3⟩
    refine key (fun q hq => ?_) hch
    rw [List.mem_cons, List.mem_range'_1] at hq
    omega
  obtain ⟨-, hvbase, hrest⟩ := hchE
  have hnum : (E.h.cell p).num = ((if xs = [] then acc else 3 : Nat) : Int) := by
    rw [hp]
    unfold derivedNode
    by_cases hx0 : xs = [] <;> simp [hx0]
  have htyp : (E.h.cell p).typ = base := by rw [hp]; rfl
  have hb0 : base ≠ 0 := Nat.ne_of_gt hvbase.1
  refine (C45_struct (e := E) (n := E.h.cell p) (l := l) (t := y) (pt := nm) (ps := List.range' (base + 1) xs.length) (ts := xs) ⟨hv, rfl, by rw [hp]; rfl⟩ (by rw [hp]; exact hbp)
    (by rw [hp]; exact fun hh => absurd rfl hh)
    (by rw [hp]; exact hsl) (by rw [hp]; exact fun hh => absurd rfl hh) (by rw [hp]; exact Neutral.slot hx) (by rw [htyp]; exact fun _ => hvbase)
    (by rw [htyp]; exact fun _ => ⟨hpa.1, linked_of hrest, hpa.2⟩) (by rw [hnum]; split <;> omega)).print' ?_ hf
  have hbk : (E.h.cell base).back ≠ 0 ↔ xs ≠ [] := by
    cases xs with
    | nil =>
      have : (E.h.cell base).back = 0 := hrest
      simp [this]
    | cons z zs =>
      have : (E.h.cell base).back = base + 1 := hrest.1
      simp [this]
  have h5 : parentsText E (E.h.cell p) nm xs = bx := by
    unfold parentsText optText
    rw [htyp, if_neg hb0, hnum, b3]
    by_cases hx0 : xs = []
    · subst hx0
      have : (E.h.cell base).back = 0 := hrest
      simp [this, ifText]
    · have := hbk.2 hx0
      simp [this, ifText, hx0]
  rw [h3, h4, h5, h6, h7, hp]
  simp [derivedNode]

/-- A struct with bases and a body. -/
theorem derived_gives {r : Rec} {hx bx : Bytes} {hs bs inner : List Tok} {o z : Tok} (hH : RecordName e.mem .struct hx hs) (hB : BasesToks e.mem bx bs)
    (hr : ∀ nm, Reads e rest n (.body b!"parse_class_struct_body" (classMember r nm)) inner y)
    (ho : TokIs e.mem o .BraceCurly_Open 0 b!"{") (hz : z.type = .BraceCurly_Close) (hu : TokIs e.mem u .Statement_End 512 b!";") (hq : Quiet u (more ++ rest))
    (hn : n ≤ s.heap.next) (hn0 : 0 < s.heap.next) (hc : Consts e n s.heap) (h : Here e s (hs ++ bs ++ o :: inner ++ z :: u :: more) rest) :
    Gives (classStruct r .Decl_Struct false) e s (hs.length + bs.length + (inner.length + 3)) (hx ++ bx ++ b!"\n{\n" ++ y ++ b!"\n};\n") := by
  have hof := isFmt_of_type ho.type (by decide) (by decide)
  obtain ⟨q, bl, hq1, hq2⟩ : ∃ q bl, bs = q :: bl ∧ TokIs e.mem q .Assign_Classifer 0 b!":" := by
    cases hB with
    | one hq => exact ⟨_, _, rfl, hq⟩
    | more hq => exact ⟨_, _, rfl, hq⟩
  have h' : Here e s (hs ++ (bs ++ o :: (inner ++ z :: u :: more))) rest := by simpa using h
  have h'' : Here e s (hs ++ q :: (bl ++ o :: (inner ++ z :: u :: more))) rest := by rw [hq1] at h'; exact h'
  have hqe : HeadEnds e.mem q := by
    exact ⟨⟨isFmt_of_type hq2.type (by decide) (by decide), by rw [hq2.type]; decide, fun hh => by rw [hq2.type] at hh; cases hh⟩, by rw [hq2.has]; rfl, by rw [hq2.type]; decide⟩
  obtain ⟨nm, name, l, sq, h1, r1, r2, r3, r4, r5, r6, -⟩ := head_run (k := .struct) (r := r) (ip := false) hH hqe hn0 h''
  have hk1 : Agree 1 s.heap.next s.heap h1 := agree_kept (Nat.succ_pos _) (Nat.le_refl _) r5
  have hh1 : Here e ⟨s.idx + hs.length, h1, s.scope⟩ (bs ++ o :: (inner ++ z :: u :: more)) rest := (h'.advN.heap h1 s.scope).at rfl
  obtain ⟨acc, b1, xs, h2, p1, p2, p3, p4, p5, p6⟩ := parents_run hB (headEnds_of (fl := 0) (.inl ho)).name (by rw [ho.type]; decide) (by show 0 < h1.next; omega) hh1
  have p1 : parents e ⟨s.idx + hs.length, h1, s.scope⟩ = .ok ((h1.next, acc, List.range' (h1.next + 1) xs.length), ⟨s.idx + hs.length + bs.length, h2, s.scope⟩) := p1
  have p3 : Kept h1 h2 := p3
  have p4 : h2.next = h1.next + (b1 :: xs).length := p4
  have p5 : BaseRow h2 h1.next (b1 :: xs) := p5
  simp only [List.length_cons] at p4
  have hk2 : Agree 1 h1.next h1 h2 := agree_kept (Nat.succ_pos _) (Nat.le_refl _) p3
  have hk12 : Agree 1 s.heap.next s.heap h2 := hk1.trans (hk2.mono (Nat.le_refl _) r6)
  have hh2 : Here e ⟨s.idx + hs.length + bs.length, h2, s.scope⟩ (o :: inner ++ z :: u :: more) rest := (hh1.advN.heap h2 s.scope).at rfl
  obtain ⟨h3, ps, ys, c1, c2, c3, c4, c5⟩ := classBody_run (k := .struct) (more := u :: more) (hr nm) ho.type hz (by show n ≤ h2.next; omega) (by show 0 < h2.next; omega)
    (hc.keep (hk12.mono (Nat.le_refl _) hn) (by show s.heap.next ≤ h2.next; omega)) (by simp) hh2
  have c1 : classBody r .Decl_Struct nm e ⟨s.idx + hs.length + bs.length, h2, s.scope⟩ = .ok (h2.next, ⟨s.idx + hs.length + bs.length + (inner.length + 2), h3, s.scope⟩) := c1
  have c2 : BodyHas .Struct_Body h2.next h3 ps ys := c2
  have c4 : h2.next < h3.next := c4
  have c5 : Agree 1 h2.next h2 h3 := c5
  have hh3 : Here e ⟨s.idx + hs.length + bs.length + (inner.length + 2), h3, s.scope⟩ (u :: more) rest := by
    have : Here e ⟨s.idx + hs.length + bs.length, h2, s.scope⟩ ((o :: inner ++ [z]) ++ u :: more) rest := by simpa using hh2
    refine (this.advN.heap h3 s.scope).at ?_
    simp [St.adv]
  have p5' : BaseRow h3 h1.next (b1 :: xs) := p5.agree fun q w1 w2 => (c5 q (by omega) (by simp only [List.length_cons] at w2; omega)).2
  obtain ⟨h4, d1, d2, d3, d4, d5, d6⟩ := defStruct_bases (c := e.cfg) (name := name) (sq := sq) (acc := acc) (xs := xs) (nm := b1) c2.body.valid c2.type p5' (by omega)
    (by simp only [List.length_cons]; omega)
  simp only [List.length_cons] at d4
  have hst := c2.stands (by rfl)
  rw [c3] at hst
  refine ⟨h3.next, h4, ?_, ?_, by omega, by omega, ?_, ?_⟩
  · have e1 : classStruct r .Decl_Struct false e s = afterSpecs r .Decl_Struct false 0 0 nm sq e ⟨s.idx + hs.length, h1, s.scope⟩ := r1
    rw [e1]
    unfold afterSpecs
    refine bind_run p1 ?_
    refine bind_run (hh2.check hof _) ?_
    simp only [ho.type, decide_true, if_true]
    refine bind_run c1 ?_
    simp only [Bool.false_eq_true, if_false]
    refine bind_run (endStmt_run hu hq hh3) ?_
    refine bind_run (r2 _) ?_
    simp only [reduceCtorEq, if_false]
    refine bind_run (a := h3.next) (s' := ⟨s.idx + (hs.length + bs.length + (inner.length + 3)), h4, s.scope⟩) ?_ ?_
    · show (defStruct (h3.next + 1) e.cfg h3 name _).bind _ = _
      rw [d1]
      simp only [Res.ok_bind]
      rw [show s.idx + (hs.length + bs.length + (inner.length + 3)) = s.idx + hs.length + bs.length + (inner.length + 2) + 1 by omega]
      rfl
    · simp only [ne_eq, not_true_eq_false, if_false]
      rfl
  · intro q w1 w2
    have e1 := hk12 q w1 w2
    have e2 := c5 q w1 (by omega)
    exact ⟨⟨w1, by omega⟩, by rw [d4 q (.inl (by omega)) (by omega), e2.2, e1.2]⟩
  · unfold Single
    rw [d3]
    exact ⟨rfl, rfl⟩
  · intro E par f g w1 w2 w3 w4
    rw [r3]
    have hag : ∀ q, s.heap.next ≤ q → q < h3.next → (q < h1.next ∨ h2.next ≤ q) → h4.cell q = h3.cell q := fun q w1 w2 w3 => d4 q (by omega) w2
    refine derived_says (a := s.heap.next) (b := h3.next) (h := h4) (sq := sq) (acc := acc) (base := h1.next) (nm := b1) (xs := xs) hn0 w1 w2 (by rw [w3, d3]) w4 ?_ ?_ p2 r6
      (by simp only [List.length_cons]; omega) d5 d6 p6
    · refine r4.agree (g := h4) ?_ (Nat.le_refl _) (by omega)
      intro q w1 w2
      refine ⟨⟨by omega, by omega⟩, ?_⟩
      rw [d4 q (.inl w2) (by omega), (c5 q (by omega) (by omega)).2, (hk2 q (by omega) w2).2]
    · refine hst.agree (g := h4) ?_ (by omega) (Nat.le_refl _)
      intro q w1 w2
      exact ⟨⟨by omega, by omega⟩, d4 q (.inr (by omega)) w2⟩

theorem RecordHead.first {c : Bytes} {k : RecordKind} (h : RecordHead c k x ts) : ∃ t tl, ts = t :: tl ∧ t.type = k.tok := by
  have key : ∀ {k : RecordKind} {x : Bytes} {ts : List Tok}, RecordName c k x ts → ∃ t tl, ts = t :: tl ∧ t.type = k.tok := by
    intro k x ts h
    cases h with
    | named h1 h2 => exact ⟨_, _, rfl, h1⟩
    | final h1 h2 => exact ⟨_, _, rfl, h1⟩
    | unnamed h1 => exact ⟨_, _, rfl, h1⟩
  cases h with
  | plain h => exact key h
  | derived h1 h2 =>
    obtain ⟨t, tl, rfl, ht⟩ := key h1
    exact ⟨_, _, rfl, ht⟩

theorem BasesToks.types {c : Bytes} (h : BasesToks c y ts) : ∀ t ∈ ts, t.type ∉ [TokType.BraceCurly_Open, .BraceCurly_Close, .Statement_End] := by
  have acc : ∀ {x : Bytes} {as : List Tok}, AccessToks x as → ∀ t ∈ as, t.type ∉ [TokType.BraceCurly_Open, .BraceCurly_Close, .Statement_End] := by
    intro x as hA t ht
    cases hA with
    | none => cases ht
    | pub h1 _ => rw [List.mem_singleton.1 ht, h1]; decide
    | pri h1 _ => rw [List.mem_singleton.1 ht, h1]; decide
  have qual : ∀ {x : Bytes} {ns : List Tok}, QualToks c x ns → ∀ t ∈ ns, t.type ∉ [TokType.BraceCurly_Open, .BraceCurly_Close, .Statement_End] := by
    intro x ns hN t ht
    rcases hN.types t ht with h | h <;> rw [h] <;> decide
  have more : ∀ {xs : List Bytes} {us : List Tok}, MoreBases c xs us → ∀ t ∈ us, t.type ∉ [TokType.BraceCurly_Open, .BraceCurly_Close, .Statement_End] := by
    intro xs us hM
    induction hM with
    | nil => intro _ ht; cases ht
    | cons hu hA _ hN _ ih =>
      intro t ht
      simp only [List.cons_append, List.mem_cons, List.mem_append] at ht
      rcases ht with rfl | (ht | ht) | ht
      · rw [hu]; decide
      · exact acc hA t ht
      · exact qual hN t ht
      · exact ih t ht
  intro t ht
  cases h with
  | one hq hA hN =>
    simp only [List.cons_append, List.mem_cons, List.mem_append] at ht
    rcases ht with rfl | ht | ht
    · rw [hq.type]; decide
    · exact acc hA t ht
    · exact qual hN t ht
  | more hq hA _ hN hM =>
    simp only [List.cons_append, List.mem_cons, List.mem_append] at ht
    rcases ht with rfl | (ht | ht) | ht
    · rw [hq.type]; decide
    · exact acc hA t ht
    · exact qual hN t ht
    · exact more hM t ht

theorem RecordHead.types {c : Bytes} (h : RecordHead c k x ts) : ∀ t ∈ ts, t.type ∉ [TokType.BraceCurly_Open, .BraceCurly_Close, .Statement_End] := by
  cases h with
  | plain h => exact h.types
  | derived h1 h2 =>
    intro t ht
    rcases List.mem_append.1 ht with ht | ht
    · exact h1.types t ht
    · exact h2.types t ht

/-- A class or struct with a body. -/
theorem record_gives {r : Rec} {hx : Bytes} {hs inner : List Tok} {o z : Tok} (hH : RecordHead e.mem k hx hs) (hr : ∀ nm, Reads e rest n (.body b!"parse_class_struct_body" (classMember r nm)) inner y)
    (ho : TokIs e.mem o .BraceCurly_Open 0 b!"{") (hz : z.type = .BraceCurly_Close) (hu : TokIs e.mem u .Statement_End 512 b!";") (hq : Quiet u (more ++ rest))
    (hn : n ≤ s.heap.next) (hn0 : 0 < s.heap.next) (hc : Consts e n s.heap) (h : Here e s (hs ++ o :: inner ++ z :: u :: more) rest) :
    Gives (classStruct r k.tok false) e s (hs.length + (inner.length + 3)) (hx ++ b!"\n{\n" ++ y ++ b!"\n};\n") := by
  cases hH with
  | plain hH => exact name_gives hH hr ho hz hu hq hn hn0 hc h
  | derived h1 h2 =>
    have := derived_gives h1 h2 hr ho hz hu hq hn hn0 hc h
    rw [List.length_append]
    exact this

theorem complicated_record {r : Rec} {hx : Bytes} {hs inner : List Tok} {o z : Tok} {m : Nat} (hH : RecordHead e.mem k hx hs)
    (ho : TokIs e.mem o .BraceCurly_Open 0 b!"{") (hb : Balanced inner) (hz : TokIs e.mem z .BraceCurly_Close 512 b!"}") (hu : TokIs e.mem u .Statement_End 512 b!";")
    (h : Here e s (hs ++ o :: inner ++ z :: u :: more) rest) (hg : ∀ sc, Gives (classStruct r k.tok false) e ⟨s.idx, s.heap, sc⟩ m x) :
    Gives (complicatedWith r k.tok) e s m x :=
  complicated_braces (by obtain ⟨f, tl, rfl, -⟩ := hH.first; simp) hH.types ho hb hz hu h fun sc => by
    rw [forwardOrDef_record]
    exact Gives.scope (hg _)


end Verif.Parse
