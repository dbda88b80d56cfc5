import Verif.Spec.Rename
import Verif.Spec.Include
import Verif.Lemmas.Include
import Verif.Lemmas.Ops
import Mathlib.Data.List.Forall2

/-!
# Two runs of the parser

A relation between two runs on the same text in two states of the process: everything is the same except for the ids,
which are renamed by an injective map.
-/

set_option linter.unusedSectionVars false

namespace Over

/-! ## Renamings -/

/-- The ids seen so far, and what they are called in the other run. -/
structure Ren where
  dom : Nat → Prop
  ren : Nat → Nat

/-- A renaming is extended. -/
def Ren.Le (W W' : Ren) : Prop := ∀ i, W.dom i → W'.dom i ∧ W'.ren i = W.ren i

theorem Ren.Le.refl (W : Ren) : W.Le W := fun _ h => ⟨h, rfl⟩
theorem Ren.Le.trans {W W' W'' : Ren} (h : W.Le W') (h' : W'.Le W'') : W.Le W'' := fun i hi =>
  ⟨(h' i (h i hi).1).1, ((h' i (h i hi).1).2).trans (h i hi).2⟩

mutual
/-- All ids in the value have been seen. -/
def Value.In (W : Ren) : Value → Prop
  | .null => True
  | .bool _ => True
  | .int _ => True
  | .frac _ => True
  | .str _ => True
  | .arr i _ vs => W.dom i ∧ Value.InL W vs
  | .tup i _ vs => W.dom i ∧ Value.InL W vs
  | .obj o => o.In W
termination_by structural v => v
/-- … several values. -/
def Value.InL (W : Ren) : List Value → Prop
  | [] => True
  | v :: vs => v.In W ∧ Value.InL W vs
termination_by structural v => v
/-- … fields. -/
def Pair.InL (W : Ren) : List Pair → Prop
  | [] => True
  | .mk _ v :: ps => v.In W ∧ Pair.InL W ps
termination_by structural v => v
/-- … a parent. -/
def Obj.InP (W : Ren) : Option Obj → Prop
  | none => True
  | some o => o.In W
termination_by structural v => v
/-- … an object. -/
def Obj.In (W : Ren) : Obj → Prop
  | .mk i ps par => W.dom i ∧ Pair.InL W ps ∧ Obj.InP W par
termination_by structural v => v
end

mutual
theorem Value.In.mono {W W' : Ren} (h : W.Le W') : ∀ v : Value, v.In W → v.In W' ∧ v.mapIds W'.ren = v.mapIds W.ren
  | .null, _ => ⟨trivial, rfl⟩
  | .bool _, _ => ⟨trivial, rfl⟩
  | .int _, _ => ⟨trivial, rfl⟩
  | .frac _, _ => ⟨trivial, rfl⟩
  | .str _, _ => ⟨trivial, rfl⟩
  | .arr i t vs, hv => by
    simp only [Value.In, Value.mapIds] at hv ⊢
    obtain ⟨h1, h2⟩ := Value.InL.mono h vs hv.2
    obtain ⟨h3, h4⟩ := h i hv.1
    exact ⟨⟨h3, h1⟩, by rw [h2, h4]⟩
  | .tup i t vs, hv => by
    simp only [Value.In, Value.mapIds] at hv ⊢
    obtain ⟨h1, h2⟩ := Value.InL.mono h vs hv.2
    obtain ⟨h3, h4⟩ := h i hv.1
    exact ⟨⟨h3, h1⟩, by rw [h2, h4]⟩
  | .obj o, hv => by
    simp only [Value.In, Value.mapIds] at hv ⊢
    obtain ⟨h1, h2⟩ := Obj.In.mono h o hv
    exact ⟨h1, by rw [h2]⟩
theorem Value.InL.mono {W W' : Ren} (h : W.Le W') : ∀ vs : List Value, Value.InL W vs →
    Value.InL W' vs ∧ Value.mapIdsL W'.ren vs = Value.mapIdsL W.ren vs
  | [], _ => ⟨by simp only [Value.InL], by simp only [Value.mapIdsL]⟩
  | v :: vs, hv => by
    simp only [Value.InL, Value.mapIdsL] at hv ⊢
    obtain ⟨h1, h2⟩ := Value.In.mono h v hv.1
    obtain ⟨h3, h4⟩ := Value.InL.mono h vs hv.2
    exact ⟨⟨h1, h3⟩, by rw [h2, h4]⟩
theorem Pair.InL.mono {W W' : Ren} (h : W.Le W') : ∀ ps : List Pair, Pair.InL W ps →
    Pair.InL W' ps ∧ Pair.mapIdsL W'.ren ps = Pair.mapIdsL W.ren ps
  | [], _ => ⟨by simp only [Pair.InL], by simp only [Pair.mapIdsL]⟩
  | .mk n v :: ps, hv => by
    simp only [Pair.InL, Pair.mapIdsL] at hv ⊢
    obtain ⟨h1, h2⟩ := Value.In.mono h v hv.1
    obtain ⟨h3, h4⟩ := Pair.InL.mono h ps hv.2
    exact ⟨⟨h1, h3⟩, by rw [h2, h4]⟩
theorem Obj.InP.mono {W W' : Ren} (h : W.Le W') : ∀ par : Option Obj, Obj.InP W par →
    Obj.InP W' par ∧ Obj.mapIdsP W'.ren par = Obj.mapIdsP W.ren par
  | none, _ => ⟨by simp only [Obj.InP], by simp only [Obj.mapIdsP]⟩
  | some o, hv => by
    simp only [Obj.InP, Obj.mapIdsP] at hv ⊢
    obtain ⟨h1, h2⟩ := Obj.In.mono h o hv
    exact ⟨h1, by rw [h2]⟩
theorem Obj.In.mono {W W' : Ren} (h : W.Le W') : ∀ o : Obj, o.In W → o.In W' ∧ o.mapIds W'.ren = o.mapIds W.ren
  | .mk i ps par, hv => by
    simp only [Obj.In, Obj.mapIds] at hv ⊢
    obtain ⟨h1, h2⟩ := Pair.InL.mono h ps hv.2.1
    obtain ⟨h3, h4⟩ := Obj.InP.mono h par hv.2.2
    obtain ⟨h5, h6⟩ := h i hv.1
    exact ⟨⟨h5, h1, h3⟩, by rw [h2, h4, h6]⟩
end

/-! ## Related data -/

/-- Related values. -/
def VV (W : Ren) (v w : Value) : Prop := v.In W ∧ w = v.mapIds W.ren
/-- Related lists of values. -/
def VL (W : Ren) (v w : List Value) : Prop := Value.InL W v ∧ w = Value.mapIdsL W.ren v
/-- Related fields. -/
def VP (W : Ren) (v w : List Pair) : Prop := Pair.InL W v ∧ w = Pair.mapIdsL W.ren v
/-- Related parents. -/
def VO (W : Ren) (v w : Option Obj) : Prop := Obj.InP W v ∧ w = Obj.mapIdsP W.ren v
/-- Related objects. -/
def VB (W : Ren) (v w : Obj) : Prop := v.In W ∧ w = v.mapIds W.ren
/-- Equal data. -/
def VE {α : Type} (_ : Ren) (a b : α) : Prop := a = b
/-- Related maps. -/
def VM (W : Ren) (m m' : StrMap Value) : Prop := List.Forall₂ (fun e e' => e.1 = e'.1 ∧ VV W e.2 e'.2) m m'

section
variable {W W' : Ren} (h : W.Le W')
include h

theorem VV.mono {v w} (hv : VV W v w) : VV W' v w := by
  obtain ⟨h1, h2⟩ := Value.In.mono h v hv.1
  exact ⟨h1, by rw [hv.2, h2]⟩
theorem VL.mono {v w} (hv : VL W v w) : VL W' v w := by
  obtain ⟨h1, h2⟩ := Value.InL.mono h v hv.1
  exact ⟨h1, by rw [hv.2, h2]⟩
theorem VP.mono {v w} (hv : VP W v w) : VP W' v w := by
  obtain ⟨h1, h2⟩ := Pair.InL.mono h v hv.1
  exact ⟨h1, by rw [hv.2, h2]⟩
theorem VO.mono {v w} (hv : VO W v w) : VO W' v w := by
  obtain ⟨h1, h2⟩ := Obj.InP.mono h v hv.1
  exact ⟨h1, by rw [hv.2, h2]⟩
theorem VM.mono {v w} (hv : VM W v w) : VM W' v w := List.Forall₂.imp (fun _ _ h1 => ⟨h1.1, h1.2.mono h⟩) hv
end

theorem VL.nil {W} : VL W [] [] := ⟨by simp only [Value.InL], by simp only [Value.mapIdsL]⟩
theorem VP.nil {W} : VP W [] [] := ⟨by simp only [Pair.InL], by simp only [Pair.mapIdsL]⟩
theorem VO.none {W} : VO W none none := ⟨by simp only [Obj.InP], by simp only [Obj.mapIdsP]⟩

theorem VL.cons_iff {W v vs l} : VL W (v :: vs) l ↔ ∃ w ws, l = w :: ws ∧ VV W v w ∧ VL W vs ws := by
  simp only [VL, VV, Value.InL, Value.mapIdsL]
  constructor
  · rintro ⟨⟨h1, h2⟩, h3⟩; exact ⟨_, _, h3, ⟨h1, rfl⟩, h2, rfl⟩
  · rintro ⟨w, ws, rfl, ⟨h1, rfl⟩, h2, rfl⟩; exact ⟨⟨h1, h2⟩, rfl⟩

theorem VP.cons_iff {W f v ps l} : VP W (.mk f v :: ps) l ↔ ∃ w qs, l = .mk f w :: qs ∧ VV W v w ∧ VP W ps qs := by
  simp only [VP, VV, Pair.InL, Pair.mapIdsL]
  constructor
  · rintro ⟨⟨h1, h2⟩, h3⟩; exact ⟨_, _, h3, ⟨h1, rfl⟩, h2, rfl⟩
  · rintro ⟨w, ws, rfl, ⟨h1, rfl⟩, h2, rfl⟩; exact ⟨⟨h1, h2⟩, rfl⟩

theorem VL.append {W} : ∀ {a b a' b'}, VL W a a' → VL W b b' → VL W (a ++ b) (a' ++ b')
  | [], b, a', b', h, h' => by
    have : a' = [] := by rw [h.2]; simp only [Value.mapIdsL]
    subst this; exact h'
  | v :: a, b, a', b', h, h' => by
    obtain ⟨w, ws, rfl, h1, h2⟩ := VL.cons_iff.1 h
    exact VL.cons_iff.2 ⟨_, _, rfl, h1, VL.append h2 h'⟩

theorem VP.append {W} : ∀ {a b a' b'}, VP W a a' → VP W b b' → VP W (a ++ b) (a' ++ b')
  | [], b, a', b', h, h' => by
    have : a' = [] := by rw [h.2]; simp only [Pair.mapIdsL]
    subst this; exact h'
  | .mk f v :: a, b, a', b', h, h' => by
    obtain ⟨w, ws, rfl, h1, h2⟩ := VP.cons_iff.1 h
    exact VP.cons_iff.2 ⟨_, _, rfl, h1, VP.append h2 h'⟩

theorem VL.single {W v w} (h : VV W v w) : VL W [v] [w] := VL.cons_iff.2 ⟨_, _, rfl, h, VL.nil⟩
theorem VP.single {W f v w} (h : VV W v w) : VP W [.mk f v] [.mk f w] := VP.cons_iff.2 ⟨_, _, rfl, h, VP.nil⟩

theorem VV.getType {W v w} (h : VV W v w) : w.getType = v.getType := by
  rw [h.2]; cases v <;> simp only [Value.mapIds, Value.getType]

theorem VL.length {W} : ∀ {a b}, VL W a b → b.length = a.length
  | [], b, h => by rw [h.2]; simp only [Value.mapIdsL]
  | v :: a, b, h => by
    obtain ⟨w, ws, rfl, h1, h2⟩ := VL.cons_iff.1 h
    simp [VL.length h2]

theorem VL.getTypes {W} : ∀ {a b}, VL W a b → b.map Value.getType = a.map Value.getType
  | [], b, h => by rw [h.2]; simp only [Value.mapIdsL]
  | v :: a, b, h => by
    obtain ⟨w, ws, rfl, h1, h2⟩ := VL.cons_iff.1 h
    simp [VL.getTypes h2, h1.getType]

theorem VL.get {W} : ∀ {a b}, VL W a b → ∀ i : Nat, (a[i]? = none ∧ b[i]? = none) ∨
    ∃ v w, a[i]? = some v ∧ b[i]? = some w ∧ VV W v w
  | [], b, h, i => by
    have : b = [] := by rw [h.2]; simp only [Value.mapIdsL]
    subst this; exact .inl ⟨rfl, rfl⟩
  | v :: a, b, h, i => by
    obtain ⟨w, ws, rfl, h1, h2⟩ := VL.cons_iff.1 h
    cases i with
    | zero => exact .inr ⟨v, w, rfl, rfl, h1⟩
    | succ i => simpa using VL.get h2 i

theorem VP.fields {W} : ∀ {a b}, VP W a b → b.map Pair.field = a.map Pair.field
  | [], b, h => by rw [h.2]; simp only [Pair.mapIdsL]
  | .mk f v :: a, b, h => by
    obtain ⟨w, ws, rfl, h1, h2⟩ := VP.cons_iff.1 h
    simp [VP.fields h2, Pair.field]

theorem VP.find {W} (x : Str) : ∀ {a b}, VP W a b → (findPair a x = none ∧ findPair b x = none) ∨
    ∃ p q, findPair a x = some p ∧ findPair b x = some q ∧ VV W p.value q.value
  | [], b, h => by
    have : b = [] := by rw [h.2]; simp only [Pair.mapIdsL]
    subst this; exact .inl ⟨rfl, rfl⟩
  | .mk f v :: a, b, h => by
    obtain ⟨w, ws, rfl, h1, h2⟩ := VP.cons_iff.1 h
    by_cases hf : (f == x) = true
    · exact .inr ⟨.mk f v, .mk f w, by simp [findPair, Pair.field, hf], by simp [findPair, Pair.field, hf], h1⟩
    · have h3 := VP.find x h2
      simpa [findPair, Pair.field, hf] using h3

theorem VM.get {W m m'} (h : VM W m m') (x : Str) : (StrMap.get m x = none ∧ StrMap.get m' x = none) ∨
    ∃ v w, StrMap.get m x = some v ∧ StrMap.get m' x = some w ∧ VV W v w := by
  induction h with
  | nil => exact .inl ⟨rfl, rfl⟩
  | @cons e e' m m' h1 h2 ih =>
    obtain ⟨k, v⟩ := e
    obtain ⟨k', w⟩ := e'
    obtain ⟨rfl, h3⟩ := h1
    by_cases hf : (k == x) = true
    · exact .inr ⟨v, w, by simp [StrMap.get, hf], by simp [StrMap.get, hf], h3⟩
    · simpa [StrMap.get, hf] using ih

/-! ## Related states -/

/-- The states of the process in the two runs fit the renaming. -/
structure RtRel (W : Ren) (r1 r2 : Rt) : Prop where
  fine1 : r1.Fine
  fine2 : r2.Fine
  inj : ∀ i j, W.dom i → W.dom j → W.ren i = W.ren j → i = j
  lt1 : ∀ i, W.dom i → i < r1.curId
  lt2 : ∀ i, W.dom i → W.ren i < r2.curId
  kw : ∀ i k, W.dom i → (r1.keyword k = some i ↔ r2.keyword k = some (W.ren i))

/-- Related states. -/
structure SRel (W : Ren) (s1 s2 : PState) : Prop where
  stream : s2.stream = s1.stream
  globals : VM W s1.globals s2.globals
  cache : VM W s1.inc.cache s2.inc.cache
  opened : s2.inc.opened = s1.inc.opened
  rt : RtRel W s1.rt s2.rt

/-- Related outcomes. -/
def ResRel {α β : Type} (W : Ren) (V : Ren → α → β → Prop) : Res α → Res β → Prop
  | .ok a s1, .ok b s2 => ∃ W', W.Le W' ∧ SRel W' s1 s2 ∧ V W' a b
  | .err e, .err e' => e = e'
  | .panic, .panic => True
  | .oof, .oof => True
  | _, _ => False

/-- Related actions. -/
def Sim2 {α β : Type} (W : Ren) (m1 : P α) (m2 : P β) (V : Ren → α → β → Prop) : Prop :=
  ∀ s1 s2, SRel W s1 s2 → ResRel W V (m1 s1) (m2 s2)

section rules
variable {α β γ δ : Type} {W : Ren}

theorem sim2_pure {a : α} {b : β} {V : Ren → α → β → Prop} (h : V W a b) : Sim2 W (pure a) (pure b) V :=
  fun _ _ hs => ⟨W, .refl W, hs, h⟩

theorem sim2_bind {m1 : P α} {m2 : P β} {f1 : α → P γ} {f2 : β → P δ} {V : Ren → α → β → Prop}
    {V' : Ren → γ → δ → Prop} (h : Sim2 W m1 m2 V)
    (hf : ∀ W', W.Le W' → ∀ a b, V W' a b → Sim2 W' (f1 a) (f2 b) V') :
    Sim2 W (m1 >>= f1) (m2 >>= f2) V' := by
  intro s1 s2 hs
  have h1 := h s1 s2 hs
  simp only [bind, P.bind]
  cases e1 : m1 s1 <;> cases e2 : m2 s2 <;> rw [e1, e2] at h1 <;> simp only [ResRel] at h1 ⊢
  · obtain ⟨W', hW, hs', hv⟩ := h1
    have h2 := hf W' hW _ _ hv _ _ hs'
    revert h2
    cases f1 _ _ <;> cases f2 _ _ <;> simp only [ResRel] <;> try exact id
    rintro ⟨W2, hW2, h3⟩
    exact ⟨W2, hW.trans hW2, h3⟩
  · exact h1

theorem sim2_mono {m1 : P α} {m2 : P β} {V V' : Ren → α → β → Prop} (h : Sim2 W m1 m2 V)
    (hv : ∀ W' a b, W.Le W' → V W' a b → V' W' a b) : Sim2 W m1 m2 V' := by
  intro s1 s2 hs
  have h1 := h s1 s2 hs
  revert h1
  cases m1 s1 <;> cases m2 s2 <;> simp only [ResRel] <;> try exact id
  rintro ⟨W', hW, hs', h2⟩
  exact ⟨W', hW, hs', hv _ _ _ hW h2⟩

theorem sim2_fail {k : Kind} {V : Ren → α → β → Prop} : Sim2 W (fail k) (fail k) V := by
  intro s1 s2 hs
  simp only [ResRel, fail, hs.stream]

theorem sim2_panic {V : Ren → α → β → Prop} : Sim2 W panicP panicP V := fun _ _ _ => trivial
theorem sim2_oof {V : Ren → α → β → Prop} : Sim2 W oofP oofP V := fun _ _ _ => trivial

theorem sim2_getPos : Sim2 W getPos getPos VE := fun _ _ hs => ⟨W, .refl W, hs, by rw [hs.stream]; rfl⟩
theorem sim2_getFile : Sim2 W getFile getFile VE := fun _ _ hs => ⟨W, .refl W, hs, by rw [hs.stream]; rfl⟩
theorem sim2_getOpened : Sim2 W getOpened getOpened VE := fun _ _ hs => ⟨W, .refl W, hs, by rw [hs.opened]; rfl⟩
theorem sim2_peekP : Sim2 W peekP peekP VE := fun _ _ hs => ⟨W, .refl W, hs, by rw [hs.stream]; rfl⟩
theorem sim2_nextP : Sim2 W nextP nextP VE := fun s1 s2 hs =>
  ⟨W, .refl W, ⟨by rw [hs.stream], hs.globals, hs.cache, hs.opened, hs.rt⟩, by rw [hs.stream]; rfl⟩
theorem sim2_findCharP : Sim2 W findCharP findCharP VE := fun s1 s2 hs =>
  ⟨W, .refl W, ⟨by rw [hs.stream], hs.globals, hs.cache, hs.opened, hs.rt⟩, by rw [hs.stream]; rfl⟩

theorem sim2_liftLex {f : Str → Pos → Lex α} : Sim2 W (liftLex f) (liftLex f) VE := by
  intro s1 s2 hs
  simp only [liftLex, hs.stream]
  cases f s1.stream.rest s1.stream.pos with
  | ok a r p => exact ⟨W, .refl W, ⟨rfl, hs.globals, hs.cache, hs.opened, hs.rt⟩, rfl⟩
  | err k => exact rfl
  | panic => trivial

theorem sim2_withBound {f1 : Nat → P α} {f2 : Nat → P β} {V : Ren → α → β → Prop} (h : ∀ n, Sim2 W (f1 n) (f2 n) V) :
    Sim2 W (withBound f1) (withBound f2) V := by
  intro s1 s2 hs
  simp only [withBound, hs.stream]
  exact h _ _ _ hs

theorem sim2_ite {c : Prop} [Decidable c] {a a' : P α} {b b' : P β} {V : Ren → α → β → Prop}
    (h1 : c → Sim2 W a b V) (h2 : ¬ c → Sim2 W a' b' V) :
    Sim2 W (if c then a else a') (if c then b else b') V := by
  by_cases h : c
  · rw [if_pos h, if_pos h]; exact h1 h
  · rw [if_neg h, if_neg h]; exact h2 h

theorem sim2_failEnd {V : Ren → α → β → Prop} : Sim2 W failEnd failEnd V :=
  sim2_bind sim2_getPos (by rintro W' _ p _ rfl; exact sim2_fail)

theorem sim2_expectP (c : Char) : Sim2 W (expectP c) (expectP c) VE :=
  sim2_bind sim2_nextP (by
    rintro W' _ x _ rfl
    cases x with
    | none => exact sim2_panic
    | some ch => exact sim2_ite (fun _ => sim2_pure rfl) (fun _ => sim2_panic))

/-- One more pair of ids. -/
def Ren.add (W : Ren) (i j : Nat) : Ren := ⟨fun n => W.dom n ∨ n = i, fun n => if n = i then j else W.ren n⟩

theorem Ren.le_add {i j : Nat} (h : W.dom i → W.ren i = j) : W.Le (W.add i j) := by
  intro n hn
  refine ⟨.inl hn, ?_⟩
  simp only [Ren.add]
  by_cases e : n = i
  · subst e; rw [if_pos rfl, h hn]
  · rw [if_neg e]

theorem Ren.add_dom {i j : Nat} : (W.add i j).dom i := .inr rfl
theorem Ren.add_ren {i j : Nat} : (W.add i j).ren i = j := if_pos rfl

/-- The two processes go on. -/
theorem RtRel.moves {r1 r2 r1' r2' : Rt} (h : RtRel W r1 r2)
    (h1 : r1.toShared.MovesOn r1'.toShared) (h2 : r2.toShared.MovesOn r2'.toShared) : RtRel W r1' r2' where
  fine1 := h1.fine h.fine1
  fine2 := h2.fine h.fine2
  inj := h.inj
  lt1 i hi := Nat.lt_of_lt_of_le (h.lt1 i hi) h1.counter
  lt2 i hi := Nat.lt_of_lt_of_le (h.lt2 i hi) h2.counter
  kw i k hi := by
    have key : ∀ {s s' : Shared} {n : Nat}, s.MovesOn s' → n < s.curId → (s.keyword k = some n ↔ s'.keyword k = some n) := by
      intro s s' n hm hn
      constructor
      · exact hm.keeps k n
      · intro h3
        cases hs : s.keyword k with
        | none => have := (hm.new k n hs h3).1; omega
        | some m => rw [hm.keeps k m hs] at h3; exact h3
    exact (key h1 (h.lt1 i hi)).symm.trans ((h.kw i k hi).trans (key h2 (h.lt2 i hi)))

theorem Rt.next_movesOn (rt : Rt) : rt.toShared.MovesOn
    { rt.toShared with curId := rt.curId + 1 } :=
  ⟨Nat.le_succ _, fun k i h => by cases k <;> exact h, fun k i h h' => by
    have : rt.toShared.keyword k = some i := by cases k <;> exact h'
    rw [h] at this; cases this⟩

theorem Rt.next_movesOn' {rt : Rt} (hf : rt.Fine) : rt.toShared.MovesOn rt.next.toShared :=
  rt.next_movesOn.trans (rt.moveOn rt.time _) hf

theorem Rt.next_new {rt : Rt} (hf : rt.Fine) (k : IncKind) : rt.next.keyword k ≠ some rt.curId := by
  intro h
  cases hs : rt.keyword k with
  | none =>
    have := ((rt.moveOn rt.time { rt.toShared with curId := rt.curId + 1 }).new k rt.curId
      (by cases k <;> exact hs) h).1
    simp only at this
    omega
  | some i =>
    have h1 := Rt.next_keyword hs
    rw [h] at h1
    cases h1
    have := (hf k _ hs).1
    omega

/-- A new id in both runs. -/
theorem RtRel.next {r1 r2 : Rt} (h : RtRel W r1 r2) : W.Le (W.add r1.curId r2.curId) ∧
    RtRel (W.add r1.curId r2.curId) r1.next r2.next := by
  have hno : ¬ W.dom r1.curId := fun hd => Nat.lt_irrefl _ (h.lt1 _ hd)
  refine ⟨Ren.le_add fun hd => absurd hd hno, ?_⟩
  have hm := h.moves (Rt.next_movesOn' h.fine1) (Rt.next_movesOn' h.fine2)
  have hto : ∀ n, W.dom n → (W.add r1.curId r2.curId).ren n = W.ren n := fun n hn =>
    (Ren.le_add (fun hd => absurd hd hno) n hn).2
  refine ⟨hm.fine1, hm.fine2, ?_, ?_, ?_, ?_⟩
  · rintro i j (hi | rfl) (hj | rfl) hij
    · rw [hto i hi, hto j hj] at hij; exact h.inj i j hi hj hij
    · rw [hto i hi, Ren.add_ren] at hij; have := h.lt2 i hi; omega
    · rw [hto j hj, Ren.add_ren] at hij; have := h.lt2 j hj; omega
    · rfl
  · rintro i (hi | rfl)
    · exact hm.lt1 i hi
    · exact r1.next_lt
  · rintro i (hi | rfl)
    · rw [hto i hi]; exact hm.lt2 i hi
    · rw [Ren.add_ren]; exact r2.next_lt
  · rintro i k (hi | rfl)
    · rw [hto i hi]; exact hm.kw i k hi
    · rw [Ren.add_ren]
      exact ⟨fun h' => absurd h' (Rt.next_new h.fine1 k), fun h' => absurd h' (Rt.next_new h.fine2 k)⟩

/-- Related ids. -/
def VI (W : Ren) (i j : Nat) : Prop := W.dom i ∧ W.ren i = j

theorem VI.mono {W W' : Ren} (h : W.Le W') {i j} (hv : VI W i j) : VI W' i j :=
  ⟨(h i hv.1).1, (h i hv.1).2.trans hv.2⟩

theorem SRel.setRt {s1 s2 : PState} {W' : Ren} {r1 r2 : Rt} (h : SRel W s1 s2) (hW : W.Le W') (hr : RtRel W' r1 r2) :
    SRel W' { s1 with rt := r1 } { s2 with rt := r2 } :=
  ⟨h.stream, h.globals.mono hW, h.cache.mono hW, h.opened, hr⟩

theorem sim2_genId : Sim2 W genId genId VI := by
  intro s1 s2 hs
  obtain ⟨h1, h2⟩ := hs.rt.next
  exact ⟨_, h1, hs.setRt h1 h2, Ren.add_dom, Ren.add_ren⟩

/-- Both runs know a keyword object. -/
theorem RtRel.keyword {r1 r2 : Rt} {k : IncKind} {i j : Nat} (h : RtRel W r1 r2) (h1 : r1.keyword k = some i)
    (h2 : r2.keyword k = some j) : W.Le (W.add i j) ∧ RtRel (W.add i j) r1 r2 := by
  have hd : W.dom i → W.ren i = j := by
    intro hd
    have := (h.kw i k hd).1 h1
    rw [h2] at this
    cases this; rfl
  have hto : ∀ n, W.dom n → (W.add i j).ren n = W.ren n := fun n hn => (Ren.le_add hd n hn).2
  have huniq : ∀ n, W.dom n → W.ren n = j → n = i := by
    intro n hn e
    have := (h.kw n k hn).2 (by rw [e]; exact h2)
    rw [h1] at this
    cases this; rfl
  refine ⟨Ren.le_add hd, h.fine1, h.fine2, ?_, ?_, ?_, ?_⟩
  · rintro n m (hn | rfl) (hm | rfl) e
    · rw [hto n hn, hto m hm] at e; exact h.inj n m hn hm e
    · rw [hto n hn, Ren.add_ren] at e; exact huniq n hn e
    · rw [hto m hm, Ren.add_ren] at e; exact (huniq m hm e.symm).symm
    · rfl
  · rintro n (hn | rfl)
    · exact h.lt1 n hn
    · exact (h.fine1 k _ h1).1
  · rintro n (hn | rfl)
    · rw [hto n hn]; exact h.lt2 n hn
    · rw [Ren.add_ren]; exact (h.fine2 k _ h2).1
  · rintro n k' (hn | rfl)
    · rw [hto n hn]; exact h.kw n k' hn
    · rw [Ren.add_ren]
      constructor
      · intro h3; rw [(h.fine1 k _ h1).2 k' h3]; exact h2
      · intro h3; rw [(h.fine2 k _ h2).2 k' h3]; exact h1

theorem forceSentinel_step (k : IncKind) {s : PState} (hf : s.rt.Fine) : ∃ i rt', forceSentinel k s = .ok i { s with rt := rt' } ∧
    s.rt.toShared.MovesOn rt'.toShared ∧ rt'.keyword k = some i := by
  cases hk : s.rt.keyword k with
  | some i =>
    refine ⟨i, s.rt, ?_, .refl _, hk⟩
    cases k <;> (simp only [Shared.keyword] at hk; simp only [forceSentinel, hk])
  | none =>
    have key : ∀ sh : Shared, sh.curId = s.rt.curId + 1 → sh.keyword k = some s.rt.curId →
        (∀ k', k' ≠ k → sh.keyword k' = s.rt.keyword k') →
        s.rt.toShared.MovesOn (s.rt.after sh).toShared ∧ (s.rt.after sh).keyword k = some s.rt.curId := by
      intro sh h1 h2 h3
      have hm := s.rt.moveOn s.rt.time sh
      have h0 : s.rt.toShared.MovesOn sh := by
        refine ⟨by omega, ?_, ?_⟩
        · intro k' i h
          rw [h3 k' (by rintro rfl; rw [hk] at h; cases h)]; exact h
        · intro k' i hn h
          by_cases e : k' = k
          · subst e
            rw [h2] at h
            cases h
            refine ⟨Nat.le_refl _, by omega, fun k2 h4 => ?_⟩
            by_contra hne
            rw [h3 k2 hne] at h4
            have := (hf k2 _ h4).1
            omega
          · rw [h3 k' e, hn] at h; cases h
      exact ⟨h0.trans hm hf, hm.keeps k _ h2⟩
    refine ⟨s.rt.curId, s.rt.after (match k with
      | .obj => { s.rt.toShared with curId := s.rt.curId + 1, objS := some s.rt.curId }
      | .str => { s.rt.toShared with curId := s.rt.curId + 1, strS := some s.rt.curId }
      | .arr => { s.rt.toShared with curId := s.rt.curId + 1, arrS := some s.rt.curId }
      | .tup => { s.rt.toShared with curId := s.rt.curId + 1, tupS := some s.rt.curId }), ?_, ?_⟩
    · cases k <;> (simp only [Shared.keyword] at hk; simp only [forceSentinel, hk])
    · refine key _ (by cases k <;> rfl) (by cases k <;> rfl) ?_
      intro k' hne
      cases k <;> cases k' <;> first | exact absurd rfl hne | rfl

theorem sim2_forceSentinel (k : IncKind) : Sim2 W (forceSentinel k) (forceSentinel k) VI := by
  intro s1 s2 hs
  obtain ⟨i, r1, e1, m1, k1⟩ := forceSentinel_step k hs.rt.fine1
  obtain ⟨j, r2, e2, m2, k2⟩ := forceSentinel_step k hs.rt.fine2
  rw [e1, e2]
  obtain ⟨h1, h2⟩ := (hs.rt.moves m1 m2).keyword k1 k2
  exact ⟨_, h1, hs.setRt h1 h2, Ren.add_dom, Ren.add_ren⟩

end rules

/-! ## Operators -/

theorem VV.scalar {W : Ren} {v : Value} (h : v.In W) (h' : v.mapIds W.ren = v) : VV W v v := ⟨h, h'.symm⟩

theorem VV.null {W} : VV W .null .null := ⟨trivial, rfl⟩
theorem VV.bool {W b} : VV W (.bool b) (.bool b) := ⟨trivial, rfl⟩
theorem VV.int {W b} : VV W (.int b) (.int b) := ⟨trivial, rfl⟩
theorem VV.frac {W b} : VV W (.frac b) (.frac b) := ⟨trivial, rfl⟩
theorem VV.str {W b} : VV W (.str b) (.str b) := ⟨trivial, rfl⟩
theorem VV.arr {W i j t vs ws} (h : VI W i j) (hv : VL W vs ws) : VV W (.arr i t vs) (.arr j t ws) :=
  ⟨⟨h.1, hv.1⟩, by rw [hv.2, ← h.2]; simp only [Value.mapIds]⟩
theorem VV.tup {W i j t vs ws} (h : VI W i j) (hv : VL W vs ws) : VV W (.tup i t vs) (.tup j t ws) :=
  ⟨⟨h.1, hv.1⟩, by rw [hv.2, ← h.2]; simp only [Value.mapIds]⟩
theorem VV.obj {W i j ps qs par par'} (h : VI W i j) (hv : VP W ps qs) (hp : VO W par par') :
    VV W (.obj (.mk i ps par)) (.obj (.mk j qs par')) :=
  ⟨⟨h.1, hv.1, hp.1⟩, by rw [hv.2, hp.2, ← h.2]; simp only [Value.mapIds, Obj.mapIds]⟩

/-- What related values look like. -/
inductive VCases (W : Ren) : Value → Value → Prop
  | null : VCases W .null .null
  | bool (b : Bool) : VCases W (.bool b) (.bool b)
  | int (i : Int) : VCases W (.int i) (.int i)
  | frac (q : Rat) : VCases W (.frac q) (.frac q)
  | str (s : Str) : VCases W (.str s) (.str s)
  | arr {i j : Nat} (t : Ty) {vs ws : List Value} : VI W i j → VL W vs ws → VCases W (.arr i t vs) (.arr j t ws)
  | tup {i j : Nat} (t : List Ty) {vs ws : List Value} : VI W i j → VL W vs ws → VCases W (.tup i t vs) (.tup j t ws)
  | obj {i j : Nat} {ps qs : List Pair} {par par' : Option Obj} : VI W i j → VP W ps qs → VO W par par' →
      VCases W (.obj (.mk i ps par)) (.obj (.mk j qs par'))

theorem VV.cases {W v w} (h : VV W v w) : VCases W v w := by
  obtain ⟨h1, rfl⟩ := h
  cases v with
  | null => exact .null
  | bool b => exact .bool b
  | int i => exact .int i
  | frac q => exact .frac q
  | str s => exact .str s
  | arr i t vs => simp only [Value.mapIds]; exact .arr t ⟨h1.1, rfl⟩ ⟨h1.2, rfl⟩
  | tup i t vs => simp only [Value.mapIds]; exact .tup t ⟨h1.1, rfl⟩ ⟨h1.2, rfl⟩
  | obj o =>
    obtain ⟨i, ps, par⟩ := o
    simp only [Value.mapIds, Obj.mapIds]
    exact .obj ⟨h1.1, rfl⟩ ⟨h1.2.1, rfl⟩ ⟨h1.2.2, rfl⟩

section
variable {W : Ren}

theorem sim2_unaryOp {v w : Value} (h : VV W v w) (op : UnOp) (l c : Nat) :
    Sim2 W (unaryOp v op l c) (unaryOp w op l c) VV := by
  unfold unaryOp
  cases h.cases <;> cases op <;> simp only [Value.getType] <;>
    first
      | exact sim2_fail
      | exact sim2_pure VV.int
      | exact sim2_pure VV.frac

/-- Related results of binary operators. -/
inductive BinRel (W : Ren) : BinRes → BinRes → Prop
  | val {v w : Value} : VV W v w → BinRel W (.val v) (.val w)
  | newArr {t : Ty} {vs ws : List Value} : VL W vs ws → BinRel W (.newArr t vs) (.newArr t ws)
  | bad {t1 t2 : Ty} : BinRel W (.bad t1 t2) (.bad t1 t2)
  | divisionByZero : BinRel W .divisionByZero .divisionByZero

theorem divSem_rel (x y : Rat) : BinRel W (divSem x y) (divSem x y) := by
  unfold divSem
  split
  · exact .divisionByZero
  · exact .val .frac

theorem binSem_rel {a a' b b' : Value} (ha : VV W a a') (hb : VV W b b') (op : BinOp) :
    BinRel W (binSem op a b) (binSem op a' b') := by
  cases op <;> cases ha.cases <;> cases hb.cases <;> simp only [binSem, promotedTypes, Value.getType] <;>
    first
      | exact .val .int
      | exact .val .frac
      | exact .val .str
      | exact .bad
      | exact divSem_rel _ _
      | skip
  · cases Ty.mostSpecific _ _ with
    | none => exact .bad
    | some x => exact .newArr (VL.append ‹_› ‹_›)
  · split
    · exact .divisionByZero
    · exact .val .int

theorem sim2_binaryOp {a a' b b' : Value} (ha : VV W a a') (hb : VV W b b') (op : BinOp) (l c : Nat) :
    Sim2 W (binaryOp a b op l c) (binaryOp a' b' op l c) VV := by
  rw [binaryOp_eq, binaryOp_eq]
  have h := binSem_rel ha hb op
  revert h
  cases binSem op a b <;> cases binSem op a' b' <;> intro h <;> cases h
  · exact sim2_pure ‹_›
  · refine sim2_bind sim2_genId ?_
    intro W' hW i j hi
    exact sim2_pure (.arr hi (VL.mono hW ‹_›))
  · exact sim2_fail
  · exact sim2_fail

/-! ## Helpers -/

theorem sim2_checkValueEnd (brace : Option Char) : Sim2 W (checkValueEnd brace) (checkValueEnd brace) VE := by
  refine sim2_bind sim2_peekP ?_
  rintro W1 h1 c _ rfl
  cases c with
  | none => exact sim2_pure rfl
  | some ch =>
    refine sim2_bind sim2_getPos ?_
    rintro W2 h2 p _ rfl
    exact sim2_ite (fun _ => sim2_ite (fun _ => sim2_fail) (fun _ => sim2_pure rfl)) (fun _ => sim2_fail)

theorem sim2_parseNumeric (l c : Nat) : Sim2 W (parseNumeric l c) (parseNumeric l c) VV := by
  refine sim2_bind sim2_liftLex ?_
  rintro W1 h1 ⟨s1, s2, dec⟩ _ rfl
  simp only
  cases h : numFinish s1 s2 dec with
  | val v =>
    refine sim2_pure ?_
    simp only [numFinish] at h
    split at h
    · split at h
      · cases h
      · split at h
        · cases h
        · split at h
          · cases h
          · cases h; exact .frac
    · split at h
      · cases h
      · split at h
        · cases h
        · cases h; exact .int
  | invalid => exact sim2_fail
  | parseInt => exact fun _ _ _ => rfl

theorem sim2_parseStr : Sim2 W parseStr parseStr VV := by
  refine sim2_bind sim2_liftLex ?_
  rintro W1 h1 s _ rfl
  exact sim2_pure .str

/-- Related operands with positions. -/
def VOps (W : Ren) (a b : List (Value × Nat × Nat)) : Prop := List.Forall₂ (fun x y => VV W x.1 y.1 ∧ x.2 = y.2) a b

theorem VOps.mono {W W' : Ren} (h : W.Le W') {a b} (hv : VOps W a b) : VOps W' a b :=
  List.Forall₂.imp (fun _ _ h1 => ⟨h1.1.mono h, h1.2⟩) hv

theorem VOps.snoc {a b x y} (h : VOps W a b) (hx : VV W x.1 y.1 ∧ x.2 = y.2) : VOps W (a ++ [x]) (b ++ [y]) :=
  List.rel_append h (.cons hx .nil)

theorem VOps.popBack {a b} (h : VOps W a b) : (popBack a = none ∧ popBack b = none) ∨
    ∃ f g x y, popBack a = some (f, x) ∧ popBack b = some (g, y) ∧ VOps W f g ∧ VV W x.1 y.1 ∧ x.2 = y.2 := by
  rcases List.eq_nil_or_concat a with rfl | ⟨f, x, rfl⟩
  · cases h; exact .inl ⟨rfl, rfl⟩
  · rcases List.eq_nil_or_concat b with rfl | ⟨g, y, rfl⟩
    · have := List.Forall₂.length_eq h; simp at this
    · simp only [List.concat_eq_append] at h ⊢
      have hl : f.length = g.length := by have := List.Forall₂.length_eq h; simpa using this
      have h1 := List.forall₂_take_append (R := fun (x y : Value × Nat × Nat) => VV W x.1 y.1 ∧ x.2 = y.2) (f ++ [x]) g [y] h
      have h2 := List.forall₂_drop_append (R := fun (x y : Value × Nat × Nat) => VV W x.1 y.1 ∧ x.2 = y.2) (f ++ [x]) g [y] h
      rw [← hl] at h1 h2
      simp at h1 h2
      exact .inr ⟨f, g, x, y, by simp [Over.popBack], by simp [Over.popBack], h1, h2.1, h2.2⟩

/-- Related `parse_value`s. -/
def PVSim (pv1 pv2 : PV) : Prop := ∀ W ps qs l c d brace first, VP W ps qs →
  Sim2 W (pv1 ps l c d brace first) (pv2 qs l c d brace first) VV

variable {pv1 pv2 : PV} (hpv : PVSim pv1 pv2)
include hpv

theorem sim2_opLoop (d : Nat) (brace : Option Char) : ∀ (n : Nat) {W : Ren} {ps qs vs ws ops}, VP W ps qs → VOps W vs ws →
    Sim2 W (opLoop pv1 ps d brace n vs ops) (opLoop pv2 qs d brace n ws ops) (fun W a b => VOps W a.1 b.1 ∧ a.2 = b.2)
  | 0, _, _, _, _, _, _, _, _ => sim2_oof
  | n + 1, W, ps, qs, vs, ws, ops, hp, hv => by
    refine sim2_bind sim2_peekP ?_
    rintro W1 h1 c _ rfl
    cases c with
    | none => exact sim2_pure ⟨hv.mono h1, rfl⟩
    | some ch =>
      simp only
      cases getOp ch with
      | none => exact sim2_pure ⟨hv.mono h1, rfl⟩
      | some op =>
        refine sim2_bind sim2_nextP ?_
        rintro W2 h2 _ _ -
        refine sim2_bind sim2_peekP ?_
        rintro W3 h3 c _ rfl
        cases c with
        | none => exact sim2_failEnd
        | some _ =>
          refine sim2_bind sim2_getPos ?_
          rintro W4 h4 p _ rfl
          have h04 := ((h1.trans h2).trans h3).trans h4
          refine sim2_bind (hpv W4 _ _ _ _ _ _ _ (hp.mono h04)) ?_
          intro W5 h5 v w hvw
          refine sim2_ite (fun _ => ?_) (fun _ => ?_)
          · rcases (hv.mono (h04.trans h5)).popBack with ⟨e1, e2⟩ | ⟨f, g, x, y, e1, e2, h6, h7, h8⟩
            · rw [e1, e2]; exact sim2_panic
            · rw [e1, e2]
              obtain ⟨v1, l1, c1⟩ := x
              obtain ⟨w1, l2, c2⟩ := y
              cases h8
              refine sim2_bind (sim2_binaryOp h7 hvw op _ _) ?_
              intro W6 h6' r r' hr
              exact sim2_opLoop d brace n (hp.mono ((h04.trans h5).trans h6')) ((h6.mono h6').snoc ⟨hr, rfl⟩)
          · exact sim2_opLoop d brace n (hp.mono (h04.trans h5)) ((hv.mono (h04.trans h5)).snoc ⟨hvw, rfl⟩)

omit hpv in
theorem sim2_foldOps : ∀ (ops : List BinOp) {W : Ren} {v w vs ws}, VV W v w → VOps W vs ws →
    Sim2 W (foldOps v vs ops) (foldOps w ws ops) VV
  | [], W, v, w, vs, ws, h, _ => by
    simp only [foldOps]; exact sim2_pure h
  | op :: ops, W, v, w, vs, ws, h, hv => by
    cases hv with
    | nil => exact sim2_panic
    | @cons x y vs ws hx hv =>
      obtain ⟨v1, l1, c1⟩ := x
      obtain ⟨w1, l2, c2⟩ := y
      obtain ⟨h1, h2⟩ := hx
      cases h2
      refine sim2_bind (sim2_binaryOp h h1 op _ _) ?_
      intro W' hW r r' hr
      exact sim2_foldOps ops hr (VOps.mono hW hv)

theorem sim2_parseOps (d : Nat) (brace : Option Char) {ps qs v w} (hp : VP W ps qs) (hv : VV W v w) (l c : Nat) :
    Sim2 W (parseOps pv1 ps d brace v l c) (parseOps pv2 qs d brace w l c) VV := by
  refine sim2_bind (sim2_withBound fun n => sim2_opLoop hpv d brace n hp (.cons ⟨hv, rfl⟩ .nil)) ?_
  rintro W1 h1 ⟨vs, ops⟩ ⟨ws, ops'⟩ ⟨h2, rfl⟩
  refine sim2_bind (sim2_checkValueEnd brace) ?_
  rintro W2 h3 _ _ -
  cases h2 with
  | nil => exact sim2_panic
  | @cons x y vs ws hx hv =>
    obtain ⟨v1, l1, c1⟩ := x
    obtain ⟨w1, l2, c2⟩ := y
    exact sim2_foldOps _ (hx.1.mono h3) (VOps.mono h3 hv)

theorem sim2_parseUnary (d : Nat) (brace : Option Char) {ps qs} (hp : VP W ps qs) (op : UnOp) :
    Sim2 W (parseUnary pv1 ps d brace op) (parseUnary pv2 qs d brace op) VV := by
  refine sim2_bind sim2_nextP ?_
  rintro W1 h1 c _ rfl
  refine sim2_ite (fun _ => ?_) (fun _ => sim2_panic)
  refine sim2_bind sim2_getPos ?_
  rintro W2 h2 p _ rfl
  refine sim2_bind sim2_peekP ?_
  rintro W3 h3 c _ rfl
  cases c with
  | none => exact sim2_fail
  | some _ =>
    refine sim2_bind (hpv W3 _ _ _ _ _ _ _ (hp.mono ((h1.trans h2).trans h3))) ?_
    intro W4 h4 v w hv
    exact sim2_unaryOp hv op _ _

/-! ## Names -/

omit hpv in
theorem sim2_keyword (k : IncKind) : Sim2 W (do let i ← forceSentinel k; pure (Value.obj (Obj.empty i)))
    (do let i ← forceSentinel k; pure (Value.obj (Obj.empty i))) VV := by
  refine sim2_bind (sim2_forceSentinel k) ?_
  intro W' _ i j h
  exact sim2_pure (.obj h .nil .none)

omit hpv in
theorem sim2_lookupVar {ps qs} (hp : VP W ps qs) (x : Str) (g : Bool) (l c : Nat) :
    Sim2 W (lookupVar ps x g l c) (lookupVar qs x g l c) VV := by
  unfold lookupVar
  refine sim2_ite (fun _ => sim2_pure .null) fun _ => ?_
  refine sim2_ite (fun _ => sim2_pure .bool) fun _ => ?_
  refine sim2_ite (fun _ => sim2_pure .bool) fun _ => ?_
  refine sim2_ite (fun _ => sim2_keyword _) fun _ => ?_
  refine sim2_ite (fun _ => sim2_keyword _) fun _ => ?_
  refine sim2_ite (fun _ => sim2_keyword _) fun _ => ?_
  refine sim2_ite (fun _ => sim2_keyword _) fun _ => ?_
  refine sim2_ite (fun _ => sim2_fail) fun _ => ?_
  refine sim2_ite (fun _ => ?_) fun _ => ?_
  · intro s1 s2 hs
    unfold lookupGlobal
    rcases hs.globals.get x with ⟨e1, e2⟩ | ⟨v, w, e1, e2, h⟩
    · rw [e1, e2]; simp only [ResRel, hs.stream]
    · rw [e1, e2]; exact ⟨W, .refl W, hs, h⟩
  · rcases hp.find x with ⟨e1, e2⟩ | ⟨p, q, e1, e2, h⟩
    · rw [e1, e2]; exact sim2_fail
    · rw [e1, e2]; exact sim2_pure h

omit hpv in
theorem sim2_indexWith {f g : Nat → Option (Except OverError Value)} {v w : Value} (hv : VV W v w)
    (hf : ∀ i, (∃ e, f i = some (.error e) ∧ g i = some (.error e)) ∨ (f i = none ∧ g i = none) ∨
      ∃ x y, f i = some (.ok x) ∧ g i = some (.ok y) ∧ VV W x y) (l c : Nat) :
    Sim2 W (indexWith f v l c) (indexWith g w l c) VV := by
  unfold indexWith
  cases hv.cases with
  | int i =>
    simp only
    cases toUsize i with
    | none => exact sim2_fail
    | some n =>
      simp only
      rcases hf n with ⟨e, e1, e2⟩ | ⟨e1, e2⟩ | ⟨x, y, e1, e2, h⟩
      · rw [e1, e2]; exact sim2_fail
      · rw [e1, e2]; exact sim2_panic
      · rw [e1, e2]; exact sim2_pure h
  | _ => exact sim2_fail

omit hpv in
theorem arrGet_rel {i j t vs ws} (h : VL W vs ws) (n : Nat) :
    (∃ e, Arr.get ⟨i, t, vs⟩ n = some (.error e) ∧ Arr.get ⟨j, t, ws⟩ n = some (.error e)) ∨
    (Arr.get ⟨i, t, vs⟩ n = none ∧ Arr.get ⟨j, t, ws⟩ n = none) ∨
      ∃ x y, Arr.get ⟨i, t, vs⟩ n = some (.ok x) ∧ Arr.get ⟨j, t, ws⟩ n = some (.ok y) ∧ VV W x y := by
  simp only [Arr.get, h.length]
  by_cases hn : n ≥ vs.length
  · rw [if_pos hn, if_pos hn]; exact .inl ⟨_, rfl, rfl⟩
  · rw [if_neg hn, if_neg hn]
    rcases h.get n with ⟨e1, e2⟩ | ⟨v, w, e1, e2, hv⟩
    · rw [e1, e2]; exact .inr (.inl ⟨rfl, rfl⟩)
    · rw [e1, e2]; exact .inr (.inr ⟨_, _, rfl, rfl, hv⟩)

omit hpv in
theorem tupGet_rel {i j t vs ws} (h : VL W vs ws) (n : Nat) :
    (∃ e, Tup.get ⟨i, t, vs⟩ n = some (.error e) ∧ Tup.get ⟨j, t, ws⟩ n = some (.error e)) ∨
    (Tup.get ⟨i, t, vs⟩ n = none ∧ Tup.get ⟨j, t, ws⟩ n = none) ∨
      ∃ x y, Tup.get ⟨i, t, vs⟩ n = some (.ok x) ∧ Tup.get ⟨j, t, ws⟩ n = some (.ok y) ∧ VV W x y := by
  simp only [Tup.get, h.length]
  by_cases hn : n ≥ vs.length
  · rw [if_pos hn, if_pos hn]; exact .inl ⟨_, rfl, rfl⟩
  · rw [if_neg hn, if_neg hn]
    rcases h.get n with ⟨e1, e2⟩ | ⟨v, w, e1, e2, hv⟩
    · rw [e1, e2]; exact .inr (.inl ⟨rfl, rfl⟩)
    · rw [e1, e2]; exact .inr (.inr ⟨_, _, rfl, rfl, hv⟩)

variable [Unicode]

theorem sim2_parseVariable (brace : Option Char) : ∀ (n : Nat) {W : Ren} {ps qs} (l c d : Nat), VP W ps qs →
    Sim2 W (parseVariable pv1 n ps l c d brace) (parseVariable pv2 n qs l c d brace) VV
  | 0, _, _, _, _, _, _, _ => sim2_oof
  | n + 1, W, ps, qs, l, c, d, hp => by
    refine sim2_bind sim2_liftLex ?_
    rintro W1 h1 ⟨x, g, dt⟩ _ rfl
    refine sim2_bind (sim2_lookupVar (hp.mono h1) x g l c) ?_
    intro W2 h2 v w hv
    have hp2 := hp.mono (h1.trans h2)
    cases dt with
    | none => exact sim2_pure hv
    | dot =>
      cases hv.cases with
      | arr t hi hl =>
        refine sim2_bind sim2_getPos ?_
        rintro W3 h3 p _ rfl
        refine sim2_bind (hpv W3 _ _ _ _ _ _ _ (hp2.mono h3)) ?_
        intro W4 h4 x y hx
        exact sim2_indexWith hx (arrGet_rel (hl.mono (h3.trans h4))) _ _
      | tup t hi hl =>
        refine sim2_bind sim2_getPos ?_
        rintro W3 h3 p _ rfl
        refine sim2_bind (hpv W3 _ _ _ _ _ _ _ (hp2.mono h3)) ?_
        intro W4 h4 x y hx
        exact sim2_indexWith hx (tupGet_rel (hl.mono (h3.trans h4))) _ _
      | obj hi hps hpar =>
        refine sim2_bind sim2_getPos ?_
        rintro W3 h3 p _ rfl
        exact sim2_parseVariable brace n _ _ _ (hps.mono h3)
      | _ => exact sim2_fail
    | dotGlobal =>
      cases hv.cases with
      | arr t hi hl =>
        refine sim2_bind sim2_getPos ?_
        rintro W3 h3 p _ rfl
        refine sim2_bind (hpv W3 _ _ _ _ _ _ _ (hp2.mono h3)) ?_
        intro W4 h4 x y hx
        exact sim2_indexWith hx (arrGet_rel (hl.mono (h3.trans h4))) _ _
      | tup t hi hl =>
        refine sim2_bind sim2_getPos ?_
        rintro W3 h3 p _ rfl
        refine sim2_bind (hpv W3 _ _ _ _ _ _ _ (hp2.mono h3)) ?_
        intro W4 h4 x y hx
        exact sim2_indexWith hx (tupGet_rel (hl.mono (h3.trans h4))) _ _
      | obj hi hps hpar =>
        refine sim2_bind sim2_getPos ?_
        rintro W3 h3 p _ rfl
        exact sim2_fail
      | _ => exact sim2_fail

/-! ## Containers -/

omit hpv [Unicode] in
theorem sim2_checkDuplicate {ps qs par par'} (hp : VP W ps qs) (ho : VO W par par') (f : Str) (ft : FieldType) (l c : Nat) :
    Sim2 W (checkDuplicate f ft ps par l c) (checkDuplicate f ft qs par' l c) VE := by
  intro s1 s2 hs
  have hany : qs.any (fun p => p.field == f) = ps.any (fun p => p.field == f) := by
    have h1 : ∀ l : List Pair, l.any (fun p => p.field == f) = (l.map Pair.field).any (· == f) := by
      intro l; simp [List.any_map, Function.comp_def]
    rw [h1, h1, hp.fields]
  have hpar : par'.isSome = par.isSome := by
    rw [ho.2]; cases par <;> simp only [Obj.mapIdsP, Option.isSome]
  unfold checkDuplicate
  cases ft with
  | global =>
    simp only
    rcases hs.globals.get f with ⟨e1, e2⟩ | ⟨v, w, e1, e2, h⟩
    · rw [e1, e2]; exact ⟨W, .refl W, hs, rfl⟩
    · rw [e1, e2]; simp only [Option.isSome, if_true, ResRel, hs.stream]
  | parent =>
    simp only [hpar]
    by_cases h : par.isSome = true
    · rw [if_pos h, if_pos h]; simp only [ResRel, hs.stream]
    · rw [if_neg h, if_neg h]; exact ⟨W, .refl W, hs, rfl⟩
  | regular =>
    simp only [hany]
    by_cases h : ps.any (fun p => p.field == f) = true
    · rw [if_pos h, if_pos h]; simp only [ResRel, hs.stream]
    · rw [if_neg h, if_neg h]; exact ⟨W, .refl W, hs, rfl⟩

/-- Related fields and parents. -/
def VPO (W : Ren) (a b : List Pair × Option Obj) : Prop := VP W a.1 b.1 ∧ VO W a.2 b.2

omit hpv [Unicode] in
theorem sim2_storeField {ps qs par par' v w} (hp : VP W ps qs) (ho : VO W par par') (hv : VV W v w) (f : Str)
    (ft : FieldType) (l c : Nat) : Sim2 W (storeField f ft v ps par l c) (storeField f ft w qs par' l c) VPO := by
  unfold storeField
  cases ft with
  | global =>
    intro s1 s2 hs
    exact ⟨W, .refl W, ⟨hs.stream, .cons ⟨rfl, hv⟩ hs.globals, hs.cache, hs.opened, hs.rt⟩, hp, ho⟩
  | parent =>
    simp only
    cases hv.cases <;> simp only [Value.getObj, Value.getType] <;> try exact sim2_fail
    refine sim2_pure ⟨hp, ?_⟩
    rename_i hi hps hpar
    have h1 := VV.obj hi hps hpar
    obtain ⟨h2, h3⟩ := h1
    refine ⟨by simp only [Obj.InP]; exact h2, ?_⟩
    simp only [Obj.mapIdsP]
    simp only [Value.mapIds] at h3
    injection h3 with h3
    rw [h3]
  | regular => exact sim2_pure ⟨hp.append (.single hv), ho⟩

theorem sim2_parseFieldValuePair {ps qs par par'} (hp : VP W ps qs) (ho : VO W par par') (d : Nat) (brace : Option Char) :
    Sim2 W (parseFieldValuePair pv1 ps par d brace) (parseFieldValuePair pv2 qs par' d brace)
      (fun W a b => a.1 = b.1 ∧ VPO W a.2 b.2) := by
  refine sim2_bind sim2_peekP ?_
  rintro W1 h1 c _ rfl
  cases c with
  | none => exact sim2_panic
  | some ch =>
    refine sim2_ite (fun _ => ?_) fun _ => sim2_ite (fun _ => ?_) fun _ => ?_
    · refine sim2_bind sim2_nextP ?_
      rintro W2 h2 _ _ -
      exact sim2_pure ⟨rfl, hp.mono (h1.trans h2), ho.mono (h1.trans h2)⟩
    · refine sim2_bind sim2_getPos ?_
      rintro W2 h2 p _ rfl
      exact sim2_fail
    · refine sim2_bind sim2_getPos ?_
      rintro W2 h2 fp _ rfl
      refine sim2_bind sim2_liftLex ?_
      rintro W3 h3 ⟨f, ft⟩ _ rfl
      have h13 := (h1.trans h2).trans h3
      refine sim2_bind (sim2_checkDuplicate (hp.mono h13) (ho.mono h13) f ft _ _) ?_
      rintro W4 h4 _ _ -
      refine sim2_bind sim2_findCharP ?_
      rintro W5 h5 b _ rfl
      refine sim2_ite (fun _ => sim2_failEnd) fun _ => ?_
      refine sim2_bind sim2_getPos ?_
      rintro W6 h6 vp _ rfl
      have h16 := ((h13.trans h4).trans h5).trans h6
      refine sim2_bind (hpv W6 _ _ _ _ _ _ _ (hp.mono h16)) ?_
      intro W7 h7 v w hv
      have h17 := h16.trans h7
      refine sim2_bind (sim2_storeField (hp.mono h17) (ho.mono h17) hv f ft _ _) ?_
      rintro W8 h8 ⟨ps', par1⟩ ⟨qs', par2⟩ hpo
      refine sim2_bind sim2_findCharP ?_
      rintro W9 h9 b _ rfl
      have hpo' : VPO W9 (ps', par1) (qs', par2) := ⟨hpo.1.mono h9, hpo.2.mono h9⟩
      refine sim2_ite (fun _ => ?_) fun _ => sim2_pure ⟨rfl, hpo'⟩
      cases brace with
      | none => exact sim2_pure ⟨rfl, hpo'⟩
      | some _ => exact sim2_failEnd

theorem sim2_fieldsLoop (d : Nat) (brace : Option Char) : ∀ (n : Nat) {W : Ren} {ps qs par par'}, VP W ps qs → VO W par par' →
    Sim2 W (fieldsLoop pv1 d brace n ps par) (fieldsLoop pv2 d brace n qs par') VPO
  | 0, _, _, _, _, _, _, _ => sim2_oof
  | n + 1, W, ps, qs, par, par', hp, ho => by
    refine sim2_bind (sim2_parseFieldValuePair hpv hp ho d brace) ?_
    rintro W1 h1 ⟨b, ps1, par1⟩ ⟨b', qs1, par2⟩ ⟨rfl, hpo⟩
    exact sim2_ite (fun _ => sim2_fieldsLoop d brace n hpo.1 hpo.2) fun _ => sim2_pure hpo

theorem sim2_parseObjStream : Sim2 W (parseObjStream pv1) (parseObjStream pv2) (fun W a b => VV W (.obj a) (.obj b)) := by
  refine sim2_bind sim2_findCharP ?_
  rintro W1 h1 b _ rfl
  refine sim2_ite (fun _ => ?_) fun _ => ?_
  · refine sim2_bind sim2_genId ?_
    intro W2 h2 i j hi
    exact sim2_pure (.obj hi .nil .none)
  · refine sim2_bind (sim2_withBound fun n => sim2_fieldsLoop hpv 1 none n .nil .none) ?_
    rintro W2 h2 ⟨ps, par⟩ ⟨qs, par'⟩ hpo
    refine sim2_bind sim2_genId ?_
    intro W3 h3 i j hi
    exact sim2_pure (.obj hi (hpo.1.mono h3) (hpo.2.mono h3))

omit hpv [Unicode] in
theorem sim2_checkDepth (d : Nat) : Sim2 W (checkDepth d) (checkDepth d) VE := by
  refine sim2_ite (fun _ => ?_) fun _ => sim2_pure rfl
  refine sim2_bind sim2_getPos ?_
  rintro W1 h1 p _ rfl
  exact sim2_fail

theorem sim2_parseObj (d : Nat) : Sim2 W (parseObj pv1 d) (parseObj pv2 d) VV := by
  refine sim2_bind (sim2_checkDepth d) ?_
  rintro W1 h1 _ _ -
  refine sim2_bind (sim2_expectP '{') ?_
  rintro W1 h1 _ _ -
  refine sim2_bind sim2_findCharP ?_
  rintro W1 h1 b _ rfl
  refine sim2_ite (fun _ => sim2_failEnd) fun _ => ?_
  refine sim2_bind (sim2_withBound fun n => sim2_fieldsLoop hpv d (some '}') n .nil .none) ?_
  rintro W2 h2 ⟨ps, par⟩ ⟨qs, par'⟩ hpo
  refine sim2_bind sim2_genId ?_
  intro W3 h3 i j hi
  exact sim2_pure (.obj hi (hpo.1.mono h3) (hpo.2.mono h3))

omit hpv [Unicode] in
theorem sim2_arrStep {v w} (hv : VV W v w) (t : Ty) (a : Bool) (l c : Nat) :
    Sim2 W (arrStep t a v l c) (arrStep t a w l c) VE := by
  unfold arrStep
  rw [hv.getType]
  cases arrTypeStep t a v.getType with
  | none => exact sim2_fail
  | some r => exact sim2_pure rfl

/-- Related elements and equal types. -/
def VLT (W : Ren) (a b : List Value × Ty) : Prop := VL W a.1 b.1 ∧ a.2 = b.2

omit [Unicode] in
theorem sim2_arrLoop (d : Nat) : ∀ (n : Nat) {W : Ren} {ps qs vs ws} (t : Ty) (a : Bool), VP W ps qs → VL W vs ws →
    Sim2 W (arrLoop pv1 ps d n vs t a) (arrLoop pv2 qs d n ws t a) VLT
  | 0, _, _, _, _, _, _, _, _, _ => sim2_oof
  | n + 1, W, ps, qs, vs, ws, t, a, hp, hv => by
    refine sim2_bind sim2_findCharP ?_
    rintro W1 h1 b _ rfl
    refine sim2_ite (fun _ => sim2_failEnd) fun _ => ?_
    refine sim2_bind sim2_peekP ?_
    rintro W2 h2 c _ rfl
    cases c with
    | none => exact sim2_panic
    | some ch =>
      refine sim2_ite (fun _ => ?_) fun _ => sim2_ite (fun _ => ?_) fun _ => ?_
      · refine sim2_bind sim2_nextP ?_
        rintro W3 h3 _ _ -
        exact sim2_pure ⟨hv.mono ((h1.trans h2).trans h3), rfl⟩
      · refine sim2_bind sim2_getPos ?_
        rintro W3 h3 p _ rfl
        exact sim2_fail
      · refine sim2_bind sim2_getPos ?_
        rintro W3 h3 p _ rfl
        have h13 := (h1.trans h2).trans h3
        refine sim2_bind (hpv W3 _ _ _ _ _ _ _ (hp.mono h13)) ?_
        intro W4 h4 x y hx
        refine sim2_bind (sim2_arrStep hx t a _ _) ?_
        rintro W5 h5 ⟨t', a'⟩ _ rfl
        have h15 := (h13.trans h4).trans h5
        exact sim2_arrLoop d n t' a' (hp.mono h15) ((hv.mono h15).append (.single (hx.mono h5)))

omit [Unicode] in
theorem sim2_parseArr {ps qs} (hp : VP W ps qs) (d : Nat) : Sim2 W (parseArr pv1 ps d) (parseArr pv2 qs d) VV := by
  refine sim2_bind (sim2_checkDepth d) ?_
  rintro W1 h1 _ _ -
  refine sim2_bind (sim2_expectP '[') ?_
  rintro W2 h2 _ _ -
  refine sim2_bind (sim2_withBound fun n => sim2_arrLoop hpv d n .any true (hp.mono (h1.trans h2)) .nil) ?_
  rintro W3 h3 ⟨vs, t⟩ ⟨ws, t'⟩ ⟨hv, rfl⟩
  refine sim2_bind sim2_genId ?_
  intro W4 h4 i j hi
  exact sim2_pure (.arr hi (hv.mono h4))

omit [Unicode] in
theorem sim2_tupLoop (d : Nat) : ∀ (n : Nat) {W : Ren} {ps qs vs ws}, VP W ps qs → VL W vs ws →
    Sim2 W (tupLoop pv1 ps d n vs) (tupLoop pv2 qs d n ws) VL
  | 0, _, _, _, _, _, _, _ => sim2_oof
  | n + 1, W, ps, qs, vs, ws, hp, hv => by
    refine sim2_bind sim2_findCharP ?_
    rintro W1 h1 b _ rfl
    refine sim2_ite (fun _ => sim2_failEnd) fun _ => ?_
    refine sim2_bind sim2_peekP ?_
    rintro W2 h2 c _ rfl
    cases c with
    | none => exact sim2_panic
    | some ch =>
      refine sim2_ite (fun _ => ?_) fun _ => sim2_ite (fun _ => ?_) fun _ => ?_
      · refine sim2_bind sim2_nextP ?_
        rintro W3 h3 _ _ -
        exact sim2_pure (hv.mono ((h1.trans h2).trans h3))
      · refine sim2_bind sim2_getPos ?_
        rintro W3 h3 p _ rfl
        exact sim2_fail
      · refine sim2_bind sim2_getPos ?_
        rintro W3 h3 p _ rfl
        have h13 := (h1.trans h2).trans h3
        refine sim2_bind (hpv W3 _ _ _ _ _ _ _ (hp.mono h13)) ?_
        intro W4 h4 x y hx
        have h14 := h13.trans h4
        exact sim2_tupLoop d n (hp.mono h14) ((hv.mono h14).append (.single hx))

omit hpv [Unicode] in
theorem sim2_newTup {vs ws} (hv : VL W vs ws) : Sim2 W (do let id ← genId; pure (Tup.fromValues id vs).toValue)
    (do let id ← genId; pure (Tup.fromValues id ws).toValue) VV := by
  refine sim2_bind sim2_genId ?_
  intro W4 h4 i j hi
  simp only [Tup.fromValues, Tup.toValue, hv.getTypes]
  exact sim2_pure (.tup hi (hv.mono h4))

omit [Unicode] in
theorem sim2_parseTup {ps qs} (hp : VP W ps qs) (d : Nat) : Sim2 W (parseTup pv1 ps d) (parseTup pv2 qs d) VV := by
  refine sim2_bind (sim2_checkDepth d) ?_
  rintro W1 h1 _ _ -
  refine sim2_bind (sim2_expectP '(') ?_
  rintro W2 h2 _ _ -
  refine sim2_bind (sim2_withBound fun n => sim2_tupLoop hpv d n (hp.mono (h1.trans h2)) .nil) ?_
  intro W3 h3 vs ws hv
  exact sim2_newTup hv

/-! ## Files -/

omit [Unicode] in
theorem sim2_arrFileLoop : ∀ (n : Nat) {W : Ren} {vs ws} (t : Ty) (a : Bool), VL W vs ws →
    Sim2 W (arrFileLoop pv1 n vs t a) (arrFileLoop pv2 n ws t a) VLT
  | 0, _, _, _, _, _, _ => sim2_oof
  | n + 1, W, vs, ws, t, a, hv => by
    refine sim2_bind sim2_findCharP ?_
    rintro W1 h1 b _ rfl
    refine sim2_ite (fun _ => sim2_pure ⟨hv.mono h1, rfl⟩) fun _ => ?_
    refine sim2_bind sim2_getPos ?_
    rintro W3 h3 p _ rfl
    refine sim2_bind (hpv W3 _ _ _ _ _ _ _ .nil) ?_
    intro W4 h4 x y hx
    refine sim2_bind (sim2_arrStep hx t a _ _) ?_
    rintro W5 h5 ⟨t', a'⟩ _ rfl
    have h15 := ((h1.trans h3).trans h4).trans h5
    exact sim2_arrFileLoop n t' a' ((hv.mono h15).append (.single (hx.mono h5)))

omit [Unicode] in
theorem sim2_tupFileLoop : ∀ (n : Nat) {W : Ren} {vs ws}, VL W vs ws →
    Sim2 W (tupFileLoop pv1 n vs) (tupFileLoop pv2 n ws) VL
  | 0, _, _, _, _ => sim2_oof
  | n + 1, W, vs, ws, hv => by
    refine sim2_bind sim2_findCharP ?_
    rintro W1 h1 b _ rfl
    refine sim2_ite (fun _ => sim2_pure (hv.mono h1)) fun _ => ?_
    refine sim2_bind sim2_getPos ?_
    rintro W3 h3 p _ rfl
    refine sim2_bind (hpv W3 _ _ _ _ _ _ _ .nil) ?_
    intro W4 h4 x y hx
    have h14 := (h1.trans h3).trans h4
    exact sim2_tupFileLoop n ((hv.mono h14).append (.single hx))

theorem sim2_parseFileBody (kind : IncKind) : Sim2 W (parseFileBody pv1 kind) (parseFileBody pv2 kind) VV := by
  cases kind with
  | obj =>
    refine sim2_bind (sim2_parseObjStream hpv) ?_
    intro W1 h1 o o' ho
    exact sim2_pure ho
  | arr =>
    refine sim2_bind (sim2_withBound fun n => sim2_arrFileLoop hpv n .any true .nil) ?_
    rintro W3 h3 ⟨vs, t⟩ ⟨ws, t'⟩ ⟨hv, rfl⟩
    refine sim2_bind sim2_genId ?_
    intro W4 h4 i j hi
    exact sim2_pure (.arr hi (hv.mono h4))
  | tup =>
    refine sim2_bind (sim2_withBound fun n => sim2_tupFileLoop hpv n .nil) ?_
    intro W3 h3 vs ws hv
    exact sim2_newTup hv
  | str => exact sim2_panic

omit hpv [Unicode] in
theorem sim2_inFile {m1 m2 : P Value} (path contents : Str) (h : Sim2 W m1 m2 VV) :
    Sim2 W (inFile path contents m1) (inFile path contents m2) VV := by
  intro s1 s2 hs
  have h1 := h { s1 with stream := Stream.ofString (some path) contents, globals := [] }
    { s2 with stream := Stream.ofString (some path) contents, globals := [] } ⟨rfl, .nil, hs.cache, hs.opened, hs.rt⟩
  unfold inFile
  revert h1
  cases m1 _ <;> cases m2 _ <;> simp only [ResRel] <;> try exact id
  rintro ⟨W', hW, hs', hv⟩
  exact ⟨W', hW, ⟨hs.stream, hs.globals.mono hW, hs'.cache, hs'.opened, hs'.rt⟩, hv⟩

theorem sim2_loadFile (fs : FS) (kind : IncKind) (path : Str) :
    Sim2 W (loadFile fs pv1 kind path) (loadFile fs pv2 kind path) VV := by
  unfold loadFile
  cases fs.read path with
  | error msg => exact fun _ _ _ => rfl
  | ok contents =>
    exact sim2_ite (fun _ => sim2_pure .str) fun _ => sim2_inFile _ _ (sim2_parseFileBody hpv kind)

omit hpv [Unicode] in
theorem sim2_includeKeyword {v w} (hv : VV W v w) (l c : Nat) : Sim2 W (includeKeyword v l c) (includeKeyword w l c) VE := by
  unfold includeKeyword
  cases hv.cases with
  | obj hi hps hpar =>
    simp only [Obj.id, Value.getType]
    have step : ∀ {W' : Ren} (k : IncKind) {i j} {m1 m2 : P (Option IncKind)}, VI W' i j →
        (∀ W'', W'.Le W'' → Sim2 W'' m1 m2 VE) →
        Sim2 W' (do let n ← forceSentinel k; if i = n then pure (some k) else m1)
          (do let n ← forceSentinel k; if j = n then pure (some k) else m2) VE := by
      intro W' k i j m1 m2 hij hm s1 s2 hs
      obtain ⟨n, r1, e1, mv1, k1⟩ := forceSentinel_step k hs.rt.fine1
      obtain ⟨m, r2, e2, mv2, k2⟩ := forceSentinel_step k hs.rt.fine2
      obtain ⟨h1, h2⟩ := (hs.rt.moves mv1 mv2).keyword k1 k2
      have hs' := hs.setRt h1 h2
      have hiff : i = n ↔ j = m := by
        have hi' := hij.mono h1
        have := h2.kw i k hi'.1
        rw [k1, k2, hi'.2] at this
        simp only [Option.some.injEq] at this
        exact ⟨fun h => (this.1 h.symm).symm, fun h => (this.2 h.symm).symm⟩
      simp only [bind, P.bind, e1, e2]
      by_cases h : i = n
      · rw [if_pos h, if_pos (hiff.1 h)]
        exact ⟨_, h1, hs', rfl⟩
      · rw [if_neg h, if_neg (fun h' => h (hiff.2 h'))]
        have h3 := hm _ h1 _ _ hs'
        revert h3
        cases m1 _ <;> cases m2 _ <;> simp only [ResRel] <;> try exact id
        rintro ⟨W3, hW3, h4⟩
        exact ⟨W3, h1.trans hW3, h4⟩
    refine step .obj hi fun W1 h1 => step .str (hi.mono h1) fun W2 h2 => step .arr (hi.mono (h1.trans h2)) fun W3 h3 =>
      step .tup (hi.mono ((h1.trans h2).trans h3)) fun _ _ => sim2_fail
  | str s => exact sim2_pure rfl
  | _ => exact sim2_fail

omit hpv [Unicode] in
theorem sim2_resolveInclude (fs : FS) (p : Str) (l c : Nat) :
    Sim2 W (resolveInclude fs p l c) (resolveInclude fs p l c) VE := by
  refine sim2_bind sim2_getFile ?_
  rintro W1 h1 f _ rfl
  cases includeTarget f p with
  | none => exact sim2_panic
  | some path =>
  refine sim2_ite (fun _ => sim2_fail) fun _ => ?_
  cases fs.resolve path with
  | none => exact sim2_fail
  | some full => exact sim2_ite (fun _ => sim2_fail) fun _ => sim2_pure rfl

omit hpv [Unicode] in
theorem sim2_storeCurrent (fs : FS) : Sim2 W (storeCurrent fs) (storeCurrent fs) VE := by
  intro s1 s2 hs
  unfold storeCurrent
  rw [hs.stream, hs.opened]
  cases s1.stream.file with
  | none => exact ⟨W, .refl W, hs, rfl⟩
  | some f =>
    simp only
    cases fs.resolve f with
    | none => trivial
    | some full =>
      simp only
      by_cases h : fs.utf8 full = true
      · rw [if_pos h, if_pos h]
        exact ⟨W, .refl W, ⟨rfl, hs.globals, hs.cache, rfl, hs.rt⟩, rfl⟩
      · rw [if_neg h, if_neg h]; trivial

omit hpv [Unicode] in
theorem sim2_unstore (f : Option Str) : Sim2 W (unstore f) (unstore f) VE := by
  intro s1 s2 hs
  unfold unstore
  cases f with
  | none => exact ⟨W, .refl W, hs, rfl⟩
  | some f => exact ⟨W, .refl W, ⟨hs.stream, hs.globals, hs.cache, by simp only [hs.opened], hs.rt⟩, rfl⟩

theorem sim2_loadCached (fs : FS) (kind : IncKind) (path full : Str) :
    Sim2 W (loadCached fs pv1 kind path full) (loadCached fs pv2 kind path full) VV := by
  intro s1 s2 hs
  unfold loadCached
  rcases hs.cache.get full with ⟨e1, e2⟩ | ⟨v, w, e1, e2, h⟩
  · rw [e1, e2]
    have h1 := sim2_loadFile hpv fs kind path s1 s2 hs
    revert h1
    cases loadFile fs pv1 kind path s1 <;> cases loadFile fs pv2 kind path s2 <;> simp only [ResRel] <;> try exact id
    rintro ⟨W', hW, hs', hv⟩
    exact ⟨W', hW, ⟨hs'.stream, hs'.globals, .cons ⟨rfl, hv⟩ hs'.cache, hs'.opened, hs'.rt⟩, hv⟩
  · rw [e1, e2]; exact ⟨W, .refl W, hs, h⟩

theorem sim2_includeFileP (fs : FS) (kind : IncKind) (p : Str) (l c : Nat) :
    Sim2 W (includeFileP fs pv1 kind p l c) (includeFileP fs pv2 kind p l c) VV := by
  refine sim2_bind (sim2_resolveInclude fs p l c) ?_
  rintro W1 h1 ⟨path, full⟩ _ rfl
  refine sim2_bind (sim2_storeCurrent fs) ?_
  rintro W2 h2 stored _ rfl
  refine sim2_bind sim2_getOpened ?_
  rintro W3 h3 opened _ rfl
  refine sim2_ite (fun _ => sim2_fail) fun _ => ?_
  refine sim2_bind (sim2_loadCached hpv fs kind path full) ?_
  intro W4 h4 v w hv
  refine sim2_bind (sim2_unstore stored) ?_
  rintro W5 h5 _ _ -
  exact sim2_pure (hv.mono h5)

omit [Unicode] in
theorem sim2_includePath {ps qs v w} (hp : VP W ps qs) (hv : VV W v w) (d : Nat) (kw : Option IncKind) (p : Pos) :
    Sim2 W (includePath pv1 ps d kw v p) (includePath pv2 qs d kw w p) (fun W a b => VV W a.1 b.1 ∧ a.2 = b.2) := by
  unfold includePath
  cases kw with
  | none => exact sim2_pure ⟨hv, rfl⟩
  | some _ =>
    refine sim2_bind sim2_findCharP ?_
    rintro W1 h1 b _ rfl
    refine sim2_ite (fun _ => sim2_failEnd) fun _ => ?_
    refine sim2_bind sim2_getPos ?_
    rintro W2 h2 p _ rfl
    refine sim2_bind (hpv W2 _ _ _ _ _ _ _ (hp.mono (h1.trans h2))) ?_
    intro W3 h3 x y hx
    exact sim2_pure ⟨hx, rfl⟩

omit hpv [Unicode] in
theorem sim2_includeClose : Sim2 W includeClose includeClose VE := by
  refine sim2_bind sim2_findCharP ?_
  rintro W1 h1 b _ rfl
  refine sim2_ite (fun _ => sim2_failEnd) fun _ => ?_
  refine sim2_bind sim2_nextP ?_
  rintro W2 h2 c _ rfl
  cases c with
  | none => exact sim2_panic
  | some ch =>
    refine sim2_ite (fun _ => sim2_pure rfl) fun _ => ?_
    refine sim2_bind sim2_getPos ?_
    rintro W3 h3 p _ rfl
    cases usub p.col 1 with
    | none => exact sim2_panic
    | some c => exact sim2_fail

theorem sim2_parseInclude (fs : FS) {ps qs} (hp : VP W ps qs) (d : Nat) :
    Sim2 W (parseInclude fs pv1 ps d) (parseInclude fs pv2 qs d) VV := by
  refine sim2_bind (sim2_checkDepth d) ?_
  rintro W1 h1 _ _ -
  refine sim2_bind (sim2_expectP '<') ?_
  rintro W2 h2 _ _ -
  refine sim2_bind sim2_findCharP ?_
  rintro W3 h3 b _ rfl
  refine sim2_ite (fun _ => sim2_failEnd) fun _ => ?_
  refine sim2_bind sim2_getPos ?_
  rintro W4 h4 p _ rfl
  have h14 := ((h1.trans h2).trans h3).trans h4
  refine sim2_bind (hpv W4 _ _ _ _ _ _ _ (hp.mono h14)) ?_
  intro W5 h5 v w hv
  refine sim2_bind (sim2_includeKeyword hv _ _) ?_
  rintro W6 h6 kw _ rfl
  refine sim2_bind (sim2_includePath hpv (hp.mono ((h14.trans h5).trans h6)) (hv.mono h6) d kw p) ?_
  rintro W7 h7 ⟨x, p1⟩ ⟨y, p2⟩ ⟨hx, e⟩
  cases e
  refine sim2_bind sim2_includeClose ?_
  rintro W8 h8 _ _ -
  cases (hx.mono h8).cases with
  | str s => exact sim2_includeFileP hpv fs _ s _ _
  | _ => exact sim2_fail

/-! ## The knot -/

theorem sim2_parseTerm (fs : FS) {ps qs} (hp : VP W ps qs) (l c d : Nat) (brace : Option Char) :
    Sim2 W (parseTerm fs pv1 ps l c d brace) (parseTerm fs pv2 qs l c d brace) VV := by
  refine sim2_bind sim2_peekP ?_
  rintro W1 h1 ch _ rfl
  have hp' := hp.mono h1
  cases ch with
  | none => exact sim2_panic
  | some ch =>
    refine sim2_ite (fun _ => sim2_parseStr) fun _ => ?_
    refine sim2_ite (fun _ => sim2_parseObj hpv _) fun _ => ?_
    refine sim2_ite (fun _ => sim2_parseArr hpv hp' _) fun _ => ?_
    refine sim2_ite (fun _ => sim2_parseTup hpv hp' _) fun _ => ?_
    refine sim2_ite (fun _ => sim2_parseInclude hpv fs hp' _) fun _ => ?_
    refine sim2_ite (fun _ => sim2_parseUnary hpv _ _ hp' _) fun _ => ?_
    refine sim2_ite (fun _ => sim2_parseUnary hpv _ _ hp' _) fun _ => ?_
    refine sim2_ite (fun _ => sim2_parseNumeric _ _) fun _ => ?_
    refine sim2_ite (fun _ => ?_) fun _ => sim2_fail
    exact sim2_withBound fun n => sim2_parseVariable hpv brace n _ _ _ hp'

theorem sim2_parseValueBody (fs : FS) : PVSim (parseValueBody fs pv1) (parseValueBody fs pv2) := by
  intro W ps qs l c d brace first hp
  refine sim2_bind (sim2_parseTerm hpv fs hp l c d brace) ?_
  intro W1 h1 v w hv
  exact sim2_ite (fun _ => sim2_parseOps hpv _ _ (hp.mono h1) hv _ _) fun _ => sim2_pure hv

omit hpv in
theorem sim2_parseValue (fs : FS) : ∀ n, PVSim (parseValue fs n) (parseValue fs n)
  | 0 => fun _ _ _ _ _ _ _ _ _ => sim2_oof
  | n + 1 => sim2_parseValueBody (sim2_parseValue fs n) fs

end

/-! ## Whole runs -/

mutual
theorem Value.in_iff (W : Ren) : ∀ v : Value, v.In W ↔ ∀ i ∈ v.containers.map Value.cid, W.dom i
  | .null => by simp [Value.In, Value.containers]
  | .bool _ => by simp [Value.In, Value.containers]
  | .int _ => by simp [Value.In, Value.containers]
  | .frac _ => by simp [Value.In, Value.containers]
  | .str _ => by simp [Value.In, Value.containers]
  | .arr i t vs => by
    simp only [Value.In, Value.containers, List.map_cons, Value.cid, List.forall_mem_cons, Value.inL_iff W vs]
  | .tup i t vs => by
    simp only [Value.In, Value.containers, List.map_cons, Value.cid, List.forall_mem_cons, Value.inL_iff W vs]
  | .obj o => by simp only [Value.In, Value.containers]; exact Obj.in_iff W o
theorem Value.inL_iff (W : Ren) : ∀ vs : List Value, Value.InL W vs ↔ ∀ i ∈ (Value.containersL vs).map Value.cid, W.dom i
  | [] => by simp [Value.InL, Value.containersL]
  | v :: vs => by
    simp only [Value.InL, Value.containersL, List.map_append, List.forall_mem_append]
    exact and_congr (Value.in_iff W v) (Value.inL_iff W vs)
theorem Pair.inL_iff (W : Ren) : ∀ ps : List Pair, Pair.InL W ps ↔ ∀ i ∈ (Pair.containersL ps).map Value.cid, W.dom i
  | [] => by simp [Pair.InL, Pair.containersL]
  | .mk f v :: ps => by
    simp only [Pair.InL, Pair.containersL, List.map_append, List.forall_mem_append]
    exact and_congr (Value.in_iff W v) (Pair.inL_iff W ps)
theorem Obj.inP_iff (W : Ren) : ∀ o : Option Obj, Obj.InP W o ↔ ∀ i ∈ (Obj.containersP o).map Value.cid, W.dom i
  | none => by simp [Obj.InP, Obj.containersP]
  | some o => by simp only [Obj.InP, Obj.containersP]; exact Obj.in_iff W o
theorem Obj.in_iff (W : Ren) : ∀ o : Obj, o.In W ↔ ∀ i ∈ o.containers.map Value.cid, W.dom i
  | .mk i ps par => by
    simp only [Obj.In, Obj.containers, List.map_cons, List.map_append, List.forall_mem_cons, List.forall_mem_append,
      Value.cid, Obj.id]
    exact and_congr Iff.rfl (and_congr (Pair.inL_iff W ps) (Obj.inP_iff W par))
end

mutual
theorem Value.mapIds_data (f : Nat → Nat) : ∀ v : Value, (v.mapIds f).data = v.data
  | .null => rfl
  | .bool _ => rfl
  | .int _ => rfl
  | .frac _ => rfl
  | .str _ => rfl
  | .arr i t vs => by simp only [Value.mapIds, Value.data, Value.mapIdsL_data f vs]
  | .tup i t vs => by simp only [Value.mapIds, Value.data, Value.mapIdsL_data f vs]
  | .obj o => by simp only [Value.mapIds, Value.data, Obj.mapIds_data f o]
theorem Value.mapIdsL_data (f : Nat → Nat) : ∀ vs : List Value, Value.dataL (Value.mapIdsL f vs) = Value.dataL vs
  | [] => by simp only [Value.mapIdsL]
  | v :: vs => by simp only [Value.mapIdsL, Value.dataL, Value.mapIds_data f v, Value.mapIdsL_data f vs]
theorem Pair.mapIdsL_data (f : Nat → Nat) : ∀ ps : List Pair, Pair.dataL (Pair.mapIdsL f ps) = Pair.dataL ps
  | [] => by simp only [Pair.mapIdsL]
  | .mk n v :: ps => by simp only [Pair.mapIdsL, Pair.dataL, Value.mapIds_data f v, Pair.mapIdsL_data f ps]
theorem Obj.mapIdsP_data (f : Nat → Nat) : ∀ o : Option Obj, Obj.dataP (Obj.mapIdsP f o) = Obj.dataP o
  | none => by simp only [Obj.mapIdsP]
  | some o => by simp only [Obj.mapIdsP, Obj.dataP, Obj.mapIds_data f o]
theorem Obj.mapIds_data (f : Nat → Nat) : ∀ o : Obj, (o.mapIds f).data = o.data
  | .mk i ps par => by simp only [Obj.mapIds, Obj.data, Pair.mapIdsL_data f ps, Obj.mapIdsP_data f par]
end

theorem sRel_init {rt rt' : Rt} (h : rt.Fine) (h' : rt'.Fine) (file : Option Str) (contents : Str) :
    SRel ⟨fun _ => False, id⟩ (PState.init file contents rt) (PState.init file contents rt') where
  stream := rfl
  globals := .nil
  cache := .nil
  opened := rfl
  rt := ⟨h, h', fun _ _ h => h.elim, fun _ h => h.elim, fun _ h => h.elim, fun _ _ h => h.elim⟩

/-- Reading in another process state gives the same object up to ids. -/
theorem reads_again [Unicode] {fs : FS} {text : Str} {rt rt' : Rt} (h : rt.Fine) (h' : rt'.Fine) {o : Obj} {s : PState}
    (hr : fromStr fs text rt = .ok o s) : ∃ f s', fromStr fs text rt' = .ok (o.mapIds f) s' := by
  have := sim2_parseObjStream (sim2_parseValue fs (fs.fuel text)) _ _ (sRel_init h h' none text)
  simp only [fromStr, fromStrFuel] at hr ⊢
  rw [hr] at this
  cases hr' : parseObjStream (parseValue fs (fs.fuel text)) (PState.init none text rt') <;> rw [hr'] at this <;>
    simp only [ResRel] at this
  obtain ⟨W', -, -, -, h2⟩ := this
  simp only [Value.mapIds] at h2
  injection h2 with h2
  exact ⟨W'.ren, _, by rw [h2]⟩

theorem Pair.mapIdsL_names (f : Nat → Nat) : ∀ ps : List Pair, (Pair.mapIdsL f ps).map Pair.field = ps.map Pair.field
  | [] => by simp only [Pair.mapIdsL]
  | .mk n v :: ps => by simp only [Pair.mapIdsL, List.map_cons, Pair.mapIdsL_names f ps, Pair.field]

end Over
