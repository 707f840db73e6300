import Verif.Proof.ParseRun
import Verif.Props.Crc
import Verif.Props.ReadSpec
/-!
# Running the parser on tokens with known texts

Lemmas for C56: what the small parsing functions do on known tokens.
-/
namespace Verif.Parse
open Verif.Lex (Tok)
open Verif.Ast P

variable {e : Env} {s : St} {t : Tok} {ts more rest : List Tok} {ty : TokType} {fl : Nat} {x : Bytes} {α β : Type}

theorem TokIs.bytes (h : TokIs e.mem t ty fl x) : e.bytes (.of t) = .ok x := by
  unfold Env.bytes Txt.of
  have hx := h.text
  simp only [h.len]
  by_cases h0 : x = []
  · subst h0; simp
  · have hl : (Lex.slice e.mem t.start x.length).length = x.length := by rw [hx]
    have : 0 < x.length := List.length_pos_iff.2 h0
    unfold Lex.slice at hl
    rw [List.length_take, List.length_drop] at hl
    rw [if_neg (by omega), if_neg (by simp only [Int.toNat_natCast]; omega), Int.toNat_natCast, hx]

theorem TokIs.bytesP (h : TokIs e.mem t ty fl x) : Parse.bytes (Txt.of t) e s = Res.ok (x, s) := by
  unfold Parse.bytes
  rw [h.bytes]
  rfl

theorem TokIs.chr (h : TokIs e.mem t ty fl x) {i : Nat} {b : UInt8} (hb : x[i]? = some b) : Parse.chr t i e s = Res.ok (b, s) := by
  unfold Parse.chr
  have hx := h.text
  have hi : i < x.length := (List.getElem?_eq_some_iff.1 hb).1
  have : e.mem[t.start + i]? = some b := by
    rw [← hb, ← hx]
    unfold Lex.slice
    rw [List.getElem?_take_of_lt hi, List.getElem?_drop]
  rw [this]
  rfl

theorem Code.fmt (h : Code t) : isFmt t = false := by
  unfold isFmt
  simp [h.1, h.2]

theorem isFmt_of_type (h : t.type = ty) (h1 : ty ≠ .NewLine) (h2 : ty ≠ .Comment) : isFmt t = false := by
  unfold isFmt
  simp [h, h1, h2]

/-- One step of a run. -/
theorem bind_run {x : P α} {f : α → P β} {a : α} {s' : St} {r : Res (β × St)} (h1 : x e s = .ok (a, s')) (h2 : f a e s' = r) : (x >>= f) e s = r := by
  rw [bindP, h1]
  exact h2

theorem ite_bind {c : Prop} [Decidable c] {x y : P α} {f : α → P β} {r : Res (β × St)} (h : ((if c then x else y) >>= f) e s = r) :
    (if c then x >>= f else y >>= f) e s = r := by
  split
  · rwa [if_pos ‹_›] at h
  · rwa [if_neg ‹_›] at h

/-! ## Loops -/

/-- `n` turns of a loop lead from `x` to the end with `y`. -/
inductive Turns {σ : Type} (step : σ → P (Bool × σ)) (e : Env) : Nat → σ → St → σ → St → Prop where
  | stop {x y s s'} : step x e s = .ok ((false, y), s') → Turns step e 1 x s y s'
  | go {n x y z s s' s''} : step x e s = .ok ((true, y), s') → Turns step e n y s' z s'' → Turns step e (n + 1) x s z s''

theorem Turns.run {σ : Type} {step : σ → P (Bool × σ)} {n : Nat} {x y : σ} {s s' : St} (h : Turns step e n x s y s') :
    ∀ fuel, n ≤ fuel → loopN step fuel x e s = .ok (y, s') := by
  induction h with
  | stop h =>
    intro fuel hf
    cases fuel with
    | zero => omega
    | succ fuel =>
      unfold loopN
      simp only [bindP, h, Res.ok_bind, iteP, Bool.false_eq_true, if_false, pureP]
  | go h _ ih =>
    intro fuel hf
    cases fuel with
    | zero => omega
    | succ fuel =>
      unfold loopN
      simp only [bindP, h, Res.ok_bind, iteP, if_true]
      exact ih fuel (by omega)

theorem Turns.loop {σ : Type} {step : σ → P (Bool × σ)} {n : Nat} {x y : σ} {s s' : St} (h : Turns step e n x s y s')
    (hn : n ≤ e.cells.length + 2) : loop step x e s = .ok (y, s') := h.run _ hn

theorem Here.length_le (h : Here e s ts rest) : ts.length ≤ e.cells.length := by
  have := congrArg List.length h.cells
  simp only [List.length_drop, List.length_append] at this
  omega

/-! ## States -/

@[simp] theorem St.adv_idx (n : Nat) : (s.adv n).idx = s.idx + n := rfl
@[simp] theorem St.adv_heap (n : Nat) : (s.adv n).heap = s.heap := rfl
@[simp] theorem St.adv_scope (n : Nat) : (s.adv n).scope = s.scope := rfl
theorem St.adv_adv (n m : Nat) : (s.adv n).adv m = s.adv (n + m) := by simp [St.adv, Nat.add_assoc]
theorem St.adv_zero : s.adv 0 = s := rfl

theorem Here.advN : ∀ {ts : List Tok} {s : St}, Here e s (ts ++ more) rest → Here e (s.adv ts.length) more rest
  | [], _, h => h
  | _ :: ts, s, h => by
    have := Here.advN (ts := ts) h.tail
    rw [St.adv_adv] at this
    rw [List.length_cons, Nat.add_comm]
    exact this

/-- The same tokens, whatever the nodes and the scopes. -/
theorem Here.at {s s' : St} (h : Here e s ts rest) (hi : s'.idx = s.idx) : Here e s' ts rest := ⟨by rw [hi]; exact h.cells, by rw [hi]; exact h.num⟩

/-- A loop that takes one group of tokens after the other. -/
theorem loop_items {σ ι : Type} {step : σ → P (Bool × σ)} {toks : ι → List Tok} {nx : σ → ι → σ} {x0 : σ} {items : List ι} {tail : List Tok}
    (hgo : ∀ pre i l (s : St), items = pre ++ i :: l → Here e s (toks i ++ (l.flatMap toks ++ tail)) rest →
      step (pre.foldl nx x0) e s = .ok ((true, nx (pre.foldl nx x0) i), s.adv (toks i).length))
    (hstop : ∀ s : St, Here e s tail rest → step (items.foldl nx x0) e s = .ok ((false, items.foldl nx x0), s))
    (hpos : ∀ i ∈ items, toks i ≠ []) (h : Here e s (items.flatMap toks ++ tail) rest) :
    loop step x0 e s = .ok (items.foldl nx x0, s.adv (items.flatMap toks).length) := by
  have key : ∀ (l pre : List ι), items = pre ++ l → ∀ s : St, Here e s (l.flatMap toks ++ tail) rest →
      ∃ n, n ≤ (l.flatMap toks).length + 1 ∧ Turns step e n (pre.foldl nx x0) s (items.foldl nx x0) (s.adv (l.flatMap toks).length) := by
    intro l
    induction l with
    | nil =>
      intro pre hp s h
      rw [List.append_nil] at hp
      subst hp
      exact ⟨1, Nat.le_refl _, .stop (hstop s h)⟩
    | cons i l ih =>
      intro pre hp s h
      rw [List.flatMap_cons, List.append_assoc] at h
      have hs := hgo pre i l s hp h
      obtain ⟨n, hn, ht⟩ := ih (pre ++ [i]) (by rw [hp, List.append_assoc]; rfl) (s.adv (toks i).length) h.advN
      rw [List.foldl_append] at ht
      have := List.length_pos_iff.2 (hpos i (by rw [hp]; simp))
      refine ⟨n + 1, by rw [List.flatMap_cons, List.length_append]; omega, .go hs ?_⟩
      rw [List.flatMap_cons, List.length_append, ← St.adv_adv]
      exact ht
  obtain ⟨n, hn, ht⟩ := key items [] rfl s h
  have := h.length_le
  rw [List.length_append] at this
  exact ht.loop (by omega)

theorem inScope_run {proc : Bytes} {m : P α} {a : α} {i : Nat} {h : Heap} {sc : List Bytes}
    (hm : m e ⟨s.idx, s.heap, proc :: s.scope⟩ = .ok (a, ⟨i, h, sc⟩)) (hs : sc = proc :: s.scope) :
    inScope proc m e s = .ok (a, ⟨i, h, s.scope⟩) := by
  subst hs
  unfold inScope
  simp only [bindP, getP, Res.ok_bind, setP, hm, pureP, List.tail_cons]

/-! ## Specifiers -/

theorem SpecToks.length {c : Bytes} {l : List Specifier} {ts : List Tok} (h : SpecToks c l ts) : ts.length = l.length := by
  induction h with
  | nil => rfl
  | cons _ _ ih => rw [List.length_cons, List.length_cons, ih]

theorem specTok_fmt (x : Specifier) (h : t.type = specTok x) : isFmt t = false := by
  refine isFmt_of_type h ?_ ?_ <;> cases x <;> decide

theorem specTok_has (x : Specifier) (h : t.flags = specFlags x) : has t Lex.fSpecifier = true := by
  unfold has
  rw [h]
  cases x <;> decide

/-- A token at which the loop over the specifiers ends. -/
def StopsAt (c : Bytes) (ok : Specifier → Option (Option Bool)) (t : Tok) : Prop :=
  isFmt t = false ∧ (has t Lex.fSpecifier = false ∨ ∃ x, TokIs c t (specTok x) (specFlags x) (specToStr x) ∧ ok x = some none)

/-- The specifiers are taken one after the other. -/
theorem specifiersLoop_run {ok : Specifier → Option (Option Bool)} {l : List Specifier} {ts : List Tok} (hl : SpecToks e.mem l ts)
    (hok : ∀ x ∈ l, ok x = some (some true)) (h : Here e s (ts ++ t :: more) rest) (ht : StopsAt e.mem ok t)
    {found : List Specifier} (hn : found.length + l.length ≤ 16) :
    specifiersLoop ok found e s = .ok (found ++ l, s.adv ts.length) := by
  have key : ∀ {l : List Specifier} {ts : List Tok}, SpecToks e.mem l ts → (∀ x ∈ l, ok x = some (some true)) → ∀ {s : St} {found : List Specifier},
      Here e s (ts ++ t :: more) rest → found.length + l.length ≤ 16 → Turns (fun (found : List Specifier) => do
        if ← leftAnd (has · Lex.fSpecifier) then
          let t ← cur
          let spec := strToSpecifier (← bytes (.of t))
          match ok spec with
          | none => fail
          | some none => return (false, found)
          | some (some true) =>
            if found.length ≥ 16 then ub else
            eat t.type
            return (true, found ++ [spec])
          | some (some false) => return (true, found)
        else return (false, found)) e (ts.length + 1) found s (found ++ l) (s.adv ts.length) := by
    intro l ts hl
    induction hl with
    | nil =>
      intro _ s found h _
      refine .stop ?_
      rw [List.nil_append] at h
      obtain ⟨hf, hend | ⟨x, hx, hk⟩⟩ := ht
      · simp only [bindP, h.leftAnd hf, Res.ok_bind, iteP, hend, Bool.false_eq_true, if_false, pureP, List.append_nil, List.length_nil, St.adv_zero]
      · simp only [bindP, h.leftAnd hf, Res.ok_bind, iteP, specTok_has x hx.flags, if_true, h.cur hf, hx.bytesP, C25_specifier_spellings, hk, pureP,
          List.append_nil, List.length_nil, St.adv_zero]
    | @cons x l u us hu _ ih =>
      intro hok s found h hn
      have hux := specTok_fmt x hu.type
      rw [List.cons_append] at h
      rw [List.length_cons] at hn
      refine .go (y := found ++ [x]) (s' := s.adv 1) ?_ ?_
      · simp only [bindP, h.leftAnd hux, Res.ok_bind, iteP, specTok_has x hu.flags, if_true, h.cur hux, hu.bytesP, C25_specifier_spellings,
          hok x List.mem_cons_self, if_neg (show ¬ found.length ≥ 16 by omega), h.eat, pureP]
      · have := ih (fun y hy => hok y (List.mem_cons_of_mem _ hy)) (s := s.adv 1) (found := found ++ [x]) h.tail (by
          rw [List.length_append, List.length_singleton]; omega)
        rw [List.append_assoc, St.adv_adv, Nat.add_comm 1] at this
        exact this
  refine (key hl hok h hn).loop ?_
  have := h.length_le
  simp only [List.length_append, List.length_cons] at this
  omega

end Verif.Parse
