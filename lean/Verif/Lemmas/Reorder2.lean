import Verif.Lemmas.Reorder

/-! # Independent definitions: exchanging and leaving out -/

namespace Over

/-- What is defined next must be new. -/
def Fresh (ps : List Pair) (par : Option Obj) (st : ESt) : Target → Prop
  | .field f => f ∉ ps.map Pair.field
  | .parent => par = none
  | .global g => StrMap.get st.globals g = none

/-- A parent is an object. -/
def FitsTarget (tg : Target) (v : Value) : Prop := tg = .parent → ∃ o, v = .obj o

def putP (tg : Target) (v : Value) (ps : List Pair) : List Pair :=
  match tg with
  | .field f => ps ++ [.mk f v]
  | _ => ps

def putO (tg : Target) (v : Value) (par : Option Obj) : Option Obj :=
  match tg, v with
  | .parent, .obj o => some o
  | _, _ => par

def putG (tg : Target) (v : Value) (st : ESt) : ESt :=
  match tg with
  | .global g => { st with globals := StrMap.insert st.globals g v }
  | _ => st

section
variable {fs : FS} {file : Option Str} {stack : List Str} {load : Loader}

theorem checkNew_ok {ps : List Pair} {par : Option Obj} {tg : Target} {st : ESt} {x : Unit × ESt} :
    checkNew file ps par tg st = .ok x ↔ Fresh ps par st tg ∧ x = ((), st) := by
  cases tg with
  | field f =>
    simp only [checkNew, Fresh]
    split
    · rename_i h; exact ⟨fun e => (by cases e), fun e => absurd h e.1⟩
    · rename_i h; exact ⟨fun e => by cases e; exact ⟨h, rfl⟩, fun e => by rw [e.2]; rfl⟩
  | parent =>
    simp only [checkNew, Fresh]
    cases par with
    | none => exact ⟨fun e => by cases e; exact ⟨rfl, rfl⟩, fun e => by rw [e.2]; rfl⟩
    | some p => exact ⟨fun e => (by cases e), fun e => by cases e.1⟩
  | global g =>
    simp only [checkNew, Fresh]
    split
    · rename_i h; exact ⟨fun e => (by cases e), fun e => by rw [e.1] at h; cases h⟩
    · rename_i h; exact ⟨fun e => by cases e; exact ⟨h, rfl⟩, fun e => by rw [e.2]⟩

theorem fieldsCont_put {tg : Target} {B : List Field} {d : Nat} {ps : List Pair} {par : Option Obj} {v : Value} {st : ESt} (h : FitsTarget tg v) :
    fieldsCont fs file stack load tg B d ps par v st = evalFields fs file stack load B d (putP tg v ps) (putO tg v par) (putG tg v st) := by
  cases tg with
  | field f => rfl
  | global g => rfl
  | parent => obtain ⟨o, rfl⟩ := h rfl; rfl

/-- One definition, then the rest. -/
theorem evalFields_cons_ok {tg : Target} {e : Expr} {B : List Field} {d : Nat} {ps : List Pair} {par : Option Obj} {st : ESt}
    {x : (List Pair × Option Obj) × ESt} :
    evalFields fs file stack load (.mk tg e :: B) d ps par st = .ok x ↔
      Fresh ps par st tg ∧ ∃ v st1, evalExpr fs file stack load e ps d st = .ok (v, st1) ∧ FitsTarget tg v ∧
        evalFields fs file stack load B d (putP tg v ps) (putO tg v par) (putG tg v st1) = .ok x := by
  rw [evalFields_head]
  show EM.bind _ (fun _ => EM.bind _ _) st = _ ↔ _
  unfold EM.bind
  constructor
  · intro h
    cases hc : checkNew file ps par tg st with
    | error k => rw [hc] at h; cases h
    | ok y =>
      obtain ⟨h1, rfl⟩ := checkNew_ok.1 hc
      rw [hc] at h
      dsimp only at h
      cases hv : evalExpr fs file stack load e ps d st with
      | error k => rw [hv] at h; cases h
      | ok z =>
        obtain ⟨v, st1⟩ := z
        rw [hv] at h
        dsimp only at h
        have hf : FitsTarget tg v := by
          rintro rfl
          unfold fieldsCont at h
          cases v <;> first | exact ⟨_, rfl⟩ | cases h
        rw [fieldsCont_put hf] at h
        exact ⟨h1, v, st1, rfl, hf, h⟩
  · rintro ⟨h1, v, st1, h2, h3, h4⟩
    rw [checkNew_ok.2 ⟨h1, rfl⟩]
    dsimp only
    rw [h2]
    dsimp only
    rw [fieldsCont_put h3, h4]

theorem fresh_put {tg tg' : Target} {v : Value} {ps : List Pair} {par : Option Obj} {st : ESt} (hf : FitsTarget tg' v) :
    Fresh (putP tg' v ps) (putO tg' v par) (putG tg' v st) tg ↔ Fresh ps par st tg ∧ tg ≠ tg' := by
  cases tg with
  | field f => cases tg' <;> simp [Fresh, putP, Pair.field]
  | parent =>
    cases tg' with
    | parent => obtain ⟨o, rfl⟩ := hf rfl; simp [Fresh, putO]
    | _ => simp [Fresh, putO]
  | global g =>
    cases tg' with
    | global g' =>
      by_cases e : g = g'
      · subst e; simp [Fresh, putG, StrMap.get_insert_self]
      · simp [Fresh, putG, StrMap.get_insert_ne _ _ e, e]
    | _ => simp [Fresh, putG]

/-- Field names stay distinct. -/
theorem evalFields_nodup : ∀ (B : List Field) {d : Nat} {ps ps' : List Pair} {par par' : Option Obj} {st st' : ESt},
    evalFields fs file stack load B d ps par st = .ok ((ps', par'), st') → (ps.map Pair.field).Nodup → (ps'.map Pair.field).Nodup
  | [], _, _, _, _, _, _, _, h, hn => by cases h; exact hn
  | .mk tg e :: B, d, ps, ps', par, par', st, st', h, hn => by
    obtain ⟨h1, v, st1, -, -, h2⟩ := evalFields_cons_ok.1 h
    refine evalFields_nodup B h2 ?_
    cases tg with
    | field f =>
      simp only [putP, List.map_append, List.map_cons, List.map_nil, Pair.field]
      exact List.nodup_append.2 ⟨hn, by simp, fun a ha b hb => by
        rintro rfl
        cases List.mem_singleton.1 hb
        exact h1 ha⟩
    | _ => exact hn

end

section
variable {S : IncKind → Nat} {U X : Str → Prop} {fs : FS} {file : Option Str} {stack : List Str} {load : Loader}

theorem Like.fits {tg : Target} {v v' : Value} (h : Like S v v') (hf : FitsTarget tg v) : FitsTarget tg v' := by
  intro e
  obtain ⟨o, rfl⟩ := hf e
  cases h.form with
  | obj _ o' _ => exact ⟨o', rfl⟩

theorem LikeP.single {v v' : Value} (h : Like S v v') (f : Str) : LikeP S [.mk f v] [.mk f v'] := LikeP.snoc (LikeP.refl []) h f

theorem LikeP.trans' {a b c : List Pair} (h : LikeP S a b) (h' : LikeP S b c) : LikeP S a c := Eq.trans h h'

theorem LikeP.append {a b a' b' : List Pair} (h : LikeP S a a') (h' : LikeP S b b') : LikeP S (a ++ b) (a' ++ b') := by
  show Pair.mapIdsL _ _ = Pair.mapIdsL _ _
  rw [Pair.mapIdsL_append, Pair.mapIdsL_append, show Pair.mapIdsL _ a = _ from h, show Pair.mapIdsL _ b = _ from h']

/-- How the parents relate: alike, or (when `P`) those of before. -/
def ParOff (S : IncKind → Nat) (P : Prop) (par par' x y : Option Obj) : Prop := (¬ P ∧ LikeO S x y) ∨ (P ∧ x = par ∧ y = par')

/-- The same definitions after different ones: a run that succeeds. -/
theorem evalFields_off (hl : LoadSim S load) {P : Prop} : ∀ (fds : List Field) {X : Str → Prop}, (∀ x, X x → Field.skipsL x fds = true) →
    (∀ g, U g → Field.avoidsL g fds = true) → ∀ {ps ps' q : List Pair} {par par' r : Option Obj} {d : Nat} {st st' st1 : ESt}, AgreeOff S X ps ps' →
    (¬ P → LikeO S par par') → (P → par.isSome) → RelSt S U st st' → evalFields fs file stack load fds d ps par st = .ok ((q, r), st1) →
    ∃ Q Q' r' st1', q = ps ++ Q ∧ evalFields fs file stack load fds d ps' par' st' = .ok ((ps' ++ Q', r'), st1') ∧ LikeP S Q Q' ∧
      ParOff S P par par' r r' ∧ RelSt S U st1 st1'
  | [], _, _, _, ps, ps', q, par, par', r, d, st, st', st1, hp, hr, hP, hst, h => by
    cases h
    refine ⟨[], [], par', st', by simp, by simp [evalFields]; rfl, rfl, ?_, hst⟩
    by_cases p : P
    · exact .inr ⟨p, rfl, rfl⟩
    · exact .inl ⟨p, hr p⟩
  | .mk tg e :: fds, X, hs, hu, ps, ps', q, par, par', r, d, st, st', st1, hp, hr, hP, hst, h => by
    obtain ⟨h1, v, st2, h2, h3, h4⟩ := evalFields_cons_ok.1 h
    have hU : ∀ g, U g → tg ≠ .global g := fun g hg e => absurd (and_left (and_left (hu g hg))) (by simp [e])
    have hX : ∀ x, X x → tg ≠ .field x := fun g hg e => absurd (and_left (and_left (hs g hg))) (by simp [e])
    rcases evalExpr_off (D := fun _ => False) hl e (fun x hx => and_right (and_left (hs x hx))) (fun g hg => and_right (and_left (hu g hg))) hp st st' hst trivial with
      ⟨f, hf, -⟩ | ⟨k, hk, -⟩ | ⟨w, v', s, s', hk, h5, h6, h7, -⟩
    · exact hf.elim
    · rw [h2] at hk; cases hk
    rw [h2] at hk
    cases hk
    have hnP : P → tg ≠ .parent := by
      rintro p rfl
      have : par = none := h1
      rw [this] at hP
      exact absurd (hP p) (by simp)
    have fr : Fresh ps' par' st' tg := by
      cases tg with
      | field f =>
        show f ∉ ps'.map Pair.field
        rw [← hp.mem (fun hx => hX f hx rfl)]
        exact h1
      | parent =>
        have := (hr fun p => hnP p rfl).isSome
        rw [show par = none from h1] at this
        cases par' with
        | none => rfl
        | some o => cases this
      | global g =>
        rcases hst.globals g (fun hg => hU g hg rfl) with ⟨-, h⟩ | ⟨a, b, h, -⟩
        · exact h
        · rw [show StrMap.get st.globals g = none from h1] at h; cases h
    have hp' : AgreeOff S X (putP tg v ps) (putP tg v' ps') := by
      cases tg with
      | field f => exact hp.append (LikeP.single h6 f).agree
      | _ => exact hp
    have hr' : ¬ P → LikeO S (putO tg v par) (putO tg v' par') := by
      intro p
      cases tg with
      | parent =>
        obtain ⟨o, rfl⟩ := h3 rfl
        cases h6.form with
        | obj _ o' ho =>
          show Obj.mapIdsP _ (some o) = Obj.mapIdsP _ (some o')
          simp only [Obj.mapIdsP, show o.mapIds _ = _ from ho]
      | _ => exact hr p
    have hst' : RelSt S U (putG tg v st2) (putG tg v' s') := by
      cases tg with
      | global g => exact ⟨fun x hx => LikeGet.insert h6 _ _ fun _ => h7.globals x hx, h7.cache, h7.warm, h7.warm'⟩
      | _ => exact h7
    have hpo : P → putO tg v par = par ∧ putO tg v' par' = par' := by
      intro p
      cases tg with
      | parent => exact absurd rfl (hnP p)
      | _ => exact ⟨rfl, rfl⟩
    obtain ⟨Q, Q', r', st1', h8, h9, h10, h11, h12⟩ := evalFields_off hl fds (fun x hx => and_right (hs x hx)) (fun g hg => and_right (hu g hg)) hp' hr'
      (fun p => by rw [(hpo p).1]; exact hP p) hst' h4
    have key : ∃ m m', putP tg v ps = ps ++ m ∧ putP tg v' ps' = ps' ++ m' ∧ LikeP S m m' := by
      cases tg with
      | field f => exact ⟨_, _, rfl, rfl, LikeP.single h6 f⟩
      | _ => exact ⟨[], [], by simp [putP], by simp [putP], rfl⟩
    obtain ⟨m, m', k1, k2, k3⟩ := key
    refine ⟨m ++ Q, m' ++ Q', r', st1', by rw [h8, k1, List.append_assoc], ?_, k3.append h10, ?_, h12⟩
    · rw [← List.append_assoc, ← k2]
      exact evalFields_cons_ok.2 ⟨fr, v', s', h5, h6.fits h3, h9⟩
    · rcases h11 with h | ⟨p, h, h'⟩
      · exact .inl h
      · exact .inr ⟨p, by rw [h, (hpo p).1], by rw [h', (hpo p).2]⟩

end

end Over
