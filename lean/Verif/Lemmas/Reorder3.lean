import Verif.Lemmas.Reorder2

/-! # Independent definitions: whole documents -/

namespace Over

section
variable [Unicode] {S : IncKind → Nat} {fs : FS} {file : Option Str} {stack : List Str}

/-- What an expression that defines no global leaves as it was. -/
theorem noGlobal_state {e : Expr} (h : e.definesNoGlobal = true) {n d : Nat} {ps : List Pair} {st st1 : ESt} {v : Value} (w : Warm S st.rt)
    (he : evalExpr fs file stack (loadN fs n) e ps d st = .ok (v, st1)) : st1.globals = st.globals ∧ Warm S st1.rt := by
  obtain ⟨w2, -, g2, -⟩ := evalExpr_again (fs := fs) (file := file) (stack := stack) (loadN_sim (S := S) (fs := fs) n).later e h (ps := ps)
    (ps' := ps) (d := d) (d' := d) (.inl (ScopeLe.refl _)) st v st1 w he
  exact ⟨g2, w2⟩

omit [Unicode] in
theorem relSt_of {U : Str → Prop} {st st' : ESt} (w : Warm S st.rt) (w' : Warm S st'.rt)
    (hg : ∀ x, ¬ U x → StrMap.get st.globals x = StrMap.get st'.globals x) (hc : st.cache = st'.cache) : RelSt S U st st' :=
  ⟨fun x hx => by rw [hg x hx]; exact LikeGet.refl _, fun x => by rw [hc]; exact LikeGet.refl _, w, w'⟩

omit [Unicode] in
theorem putG_get (tg : Target) (v : Value) (st : ESt) {x : Str} (h : tg ≠ .global x) : StrMap.get (putG tg v st).globals x = StrMap.get st.globals x := by
  cases tg with
  | global g => exact StrMap.get_insert_ne _ _ (fun e => h (by rw [e]))
  | _ => rfl

omit [Unicode] in
theorem putG_self (v : Value) (st : ESt) (g : Str) : StrMap.get (putG (.global g) v st).globals g = some v := StrMap.get_insert_self _ _ _

omit [Unicode] in
theorem putG_cache (tg : Target) (v : Value) (st : ESt) : (putG tg v st).cache = st.cache ∧ (putG tg v st).rt = st.rt := by
  cases tg <;> exact ⟨rfl, rfl⟩

omit [Unicode] in
theorem agree_put (tg : Target) (v : Value) (ps : List Pair) : AgreeOff S (fun x => tg = .field x) (putP tg v ps) ps := by
  intro y hy
  cases tg with
  | field f =>
    have hne : f ≠ y := fun e => hy (by rw [e])
    have : [Pair.mk f v].find? (fun p => p.field == y) = none := by simpa [Pair.field] using hne
    simp only [putP, List.find?_append, this, Option.or_none]
    exact LikeGet.refl _
  | _ => exact LikeGet.refl _

omit [Unicode] in
theorem AgreeOff.symm {X : Str → Prop} {ps ps' : List Pair} (h : AgreeOff S X ps ps') : AgreeOff S X ps' ps := by
  intro y hy
  rcases h y hy with ⟨h1, h2⟩ | ⟨v, v', h1, h2, h3⟩
  · exact .inl ⟨h2, h1⟩
  · exact .inr ⟨_, _, h2, h1, h3.symm⟩

omit [Unicode] in
theorem find_put (tg : Target) (v : Value) (ps : List Pair) (y : Str) : ((putP tg v ps).find? (fun p => p.field == y)).map Pair.value =
    ((ps.find? (fun p => p.field == y)).map Pair.value).or (if tg = .field y then some v else none) := by
  cases tg with
  | field f =>
    by_cases e : f = y
    · subst e
      have : [Pair.mk f v].find? (fun p => p.field == f) = some (Pair.mk f v) := by simp [Pair.field]
      simp only [putP, List.find?_append, this, if_true]
      cases ps.find? (fun p => p.field == f) <;> rfl
    · have : [Pair.mk f v].find? (fun p => p.field == y) = none := by simpa [Pair.field] using e
      simp [putP, List.find?_append, this, e]
  | _ => simp [putP]

omit [Unicode] in
theorem without_skips {e : Expr} {tg : Target} (h : e.without tg = true) : ∀ x, tg = .field x → e.skips x = true := by
  rintro x rfl; exact h

omit [Unicode] in
theorem without_avoids {e : Expr} {tg : Target} (h : e.without tg = true) : ∀ x, tg = .global x → e.avoids x = true := by
  rintro x rfl; exact h

omit [Unicode] in
theorem likeP_dataL {ps ps' : List Pair} (h : LikeP S ps ps') : ps.map Pair.data = ps'.map Pair.data := by
  rw [← Pair.dataL_eq, ← Pair.dataL_eq, ← Pair.mapIdsL_data (mask S) ps, ← Pair.mapIdsL_data (mask S) ps', show Pair.mapIdsL _ ps = _ from h]

omit [Unicode] in
theorem likeO_dataP {r r' : Option Obj} (h : LikeO S r r') : Obj.dataP r = Obj.dataP r' := by
  rw [← Obj.mapIdsP_data (mask S) r, ← Obj.mapIdsP_data (mask S) r', show Obj.mapIdsP _ r = _ from h]

omit [Unicode] in
theorem like_pair_data {v v' : Value} (h : Like S v v') (f : Str) : (Pair.mk f v).data = (Pair.mk f v').data := by
  have := likeP_dataL (LikeP.single h f)
  simpa using this

omit [Unicode] in
theorem putP_data {tg : Target} {v v' : Value} (h : Like S v v') (ps ps' : List Pair) (hps : (ps.map Pair.data).Perm (ps'.map Pair.data)) :
    ((putP tg v ps).map Pair.data).Perm ((putP tg v' ps').map Pair.data) := by
  cases tg with
  | field f =>
    simp only [putP, List.map_append, List.map_cons, List.map_nil, like_pair_data h f]
    exact hps.append_right _
  | _ => exact hps

omit [Unicode] in
theorem putP_swap (tg1 tg2 : Target) (v1 v2 : Value) (ps : List Pair) :
    ((putP tg2 v2 (putP tg1 v1 ps)).map Pair.data).Perm ((putP tg1 v1 (putP tg2 v2 ps)).map Pair.data) := by
  cases tg1 <;> cases tg2 <;> simp only [putP] <;> try exact List.Perm.refl _
  simp only [List.map_append, List.map_cons, List.map_nil, List.append_assoc]
  exact (List.Perm.swap _ _ _).append_left _

omit [Unicode] in
theorem likeO_put {tg : Target} {v v' : Value} (h : Like S v v') (hf : FitsTarget tg v) {par par' : Option Obj} (hp : LikeO S par par') :
    LikeO S (putO tg v par) (putO tg v' par') := by
  cases tg with
  | parent =>
    obtain ⟨o, rfl⟩ := hf rfl
    cases h.form with
    | obj _ o' ho =>
      show Obj.mapIdsP _ (some o) = Obj.mapIdsP _ (some o')
      simp only [Obj.mapIdsP, show o.mapIds _ = _ from ho]
  | _ => exact hp

/-- Two independent definitions in the other order. -/
theorem evalFields_exchange {tg1 tg2 : Target} {e1 e2 : Expr} {B : List Field} (q1 : e1.definesNoGlobal = true) (q2 : e2.definesNoGlobal = true)
    (qi : e1.includeFree = true ∨ e2.includeFree = true) (w2 : e2.without tg1 = true)
    (w1 : e1.without tg2 = true) {n d : Nat} {ps q : List Pair} {par r : Option Obj} {st st1 : ESt} (w : Warm S st.rt)
    (h : evalFields fs file stack (loadN fs n) (.mk tg1 e1 :: .mk tg2 e2 :: B) d ps par st = .ok ((q, r), st1)) :
    ∃ q' r' st1', evalFields fs file stack (loadN fs n) (.mk tg2 e2 :: .mk tg1 e1 :: B) d ps par st = .ok ((q', r'), st1') ∧
      (q'.map Pair.data).Perm (q.map Pair.data) ∧ Obj.dataP r' = Obj.dataP r ∧ AgreeOff S (fun _ => False) q q' ∧ LikeO S r r' ∧
      RelSt S (fun _ => False) st1 st1' := by
  have hl := loadN_sim (S := S) (fs := fs) n
  obtain ⟨n1, v1, s1, ev1, f1, h⟩ := evalFields_cons_ok.1 h
  obtain ⟨n2, v2, s2, ev2, f2, h⟩ := evalFields_cons_ok.1 h
  obtain ⟨g1, k1⟩ := noGlobal_state q1 w ev1
  have k1' : Warm S (putG tg1 v1 s1).rt := by rw [(putG_cache _ _ _).2]; exact k1
  obtain ⟨g2, k2⟩ := noGlobal_state q2 k1' ev2
  obtain ⟨n2, hne⟩ := (fresh_put f1).1 n2
  have n2 : Fresh ps par st tg2 := by
    cases tg2 with
    | global g => show StrMap.get st.globals g = none; rw [← g1]; exact n2
    | _ => exact n2
  -- both in the other order
  have first : ∀ c, c = s1.cache → ∃ v2' s2', evalExpr fs file stack (loadN fs n) e2 ps d { st with cache := c } = .ok (v2', s2') ∧ Like S v2 v2' ∧
      RelSt S (fun x => tg1 = .global x) s2 s2' := by
    rintro c rfl
    have r1 : RelSt S (fun x => tg1 = .global x) (putG tg1 v1 s1) { st with cache := s1.cache } :=
      relSt_of k1' w (fun x hx => by rw [putG_get _ _ _ hx, g1]) (by rw [(putG_cache _ _ _).1])
    rcases evalExpr_off (D := fun _ => False) hl e2 (without_skips w2) (without_avoids w2) (agree_put tg1 v1 ps) _ _ r1 trivial with
      ⟨f, hf, -⟩ | ⟨k, hk, -⟩ | ⟨a, v2', s, s2', hk, ev2', lk2, rs, -⟩
    · exact hf.elim
    · rw [ev2] at hk; cases hk
    rw [ev2] at hk
    cases hk
    exact ⟨v2', s2', ev2', lk2, rs⟩
  have second : ∀ (v2' : Value) (s2' a1 : ESt) (c : StrMap Value), Warm S s2'.rt → s2'.globals = st.globals → s2'.cache = c →
      evalExpr fs file stack (loadN fs n) e1 ps d { st with cache := c } = .ok (v1, a1) →
      ∃ v1' s1', evalExpr fs file stack (loadN fs n) e1 (putP tg2 v2' ps) d (putG tg2 v2' s2') = .ok (v1', s1') ∧ Like S v1 v1' ∧
        RelSt S (fun x => tg2 = .global x) a1 s1' := by
    rintro v2' s2' a1 c k2' g2' rfl hev
    have k2'' : Warm S (putG tg2 v2' s2').rt := by rw [(putG_cache _ _ _).2]; exact k2'
    have r2 : RelSt S (fun x => tg2 = .global x) { st with cache := s2'.cache } (putG tg2 v2' s2') :=
      relSt_of w k2'' (fun x hx => by rw [putG_get _ _ _ hx, g2']) (by rw [(putG_cache _ _ _).1])
    rcases evalExpr_off (D := fun _ => False) hl e1 (without_skips w1) (without_avoids w1) (agree_put tg2 v2' ps).symm _ _ r2 trivial with
      ⟨f, hf, -⟩ | ⟨k, hk, -⟩ | ⟨a, v1', s, s1', hk, ev1', lk1, rs, -⟩
    · exact hf.elim
    · rw [hev] at hk; cases hk
    rw [hev] at hk
    cases hk
    exact ⟨v1', s1', ev1', lk1, rs⟩
  have main : ∃ v2' s2' v1' s1', evalExpr fs file stack (loadN fs n) e2 ps d st = .ok (v2', s2') ∧ Like S v2 v2' ∧
      evalExpr fs file stack (loadN fs n) e1 (putP tg2 v2' ps) d (putG tg2 v2' s2') = .ok (v1', s1') ∧ Like S v1 v1' ∧
      ∀ x, LikeGet S (StrMap.get s2.cache x) (StrMap.get s1'.cache x) := by
    rcases qi with q | q
    · -- `e1` includes nothing
      obtain ⟨c1, free1⟩ := evalExpr_noLoad e1 q _ _ _ _ _ ev1
      obtain ⟨v2', s2', ev2', lk2, rs2⟩ := first st.cache c1.symm
      obtain ⟨g2', k2'⟩ := noGlobal_state q2 w ev2'
      obtain ⟨v1', s1', ev1', lk1, -⟩ := second v2' s2' _ _ k2' g2' rfl (free1 s2'.cache)
      refine ⟨v2', s2', v1', s1', ev2', lk2, ev1', lk1, fun x => ?_⟩
      rw [(evalExpr_noLoad e1 q _ _ _ _ _ ev1').1, (putG_cache _ _ _).1]
      exact rs2.cache x
    · -- `e2` includes nothing
      have c2 := (evalExpr_noLoad e2 q _ _ _ _ _ ev2).1
      rw [(putG_cache _ _ _).1] at c2
      obtain ⟨v2', t2, ht2, lk2, -⟩ := first s1.cache rfl
      obtain ⟨-, free2⟩ := evalExpr_noLoad e2 q _ _ _ _ _ ht2
      have ev2' := free2 st.cache
      obtain ⟨g2', k2'⟩ := noGlobal_state q2 w ev2'
      obtain ⟨v1', s1', ev1', lk1, rs1⟩ := second v2' { t2 with cache := st.cache } _ _ k2' g2' rfl ev1
      refine ⟨v2', _, v1', s1', ev2', lk2, ev1', lk1, fun x => ?_⟩
      rw [c2]
      exact rs1.cache x
  obtain ⟨v2', s2', v1', s1', ev2', lk2, ev1', lk1, hcache⟩ := main
  have f2' := lk2.fits f2
  obtain ⟨g2', k2'⟩ := noGlobal_state q2 w ev2'
  have k2'' : Warm S (putG tg2 v2' s2').rt := by rw [(putG_cache _ _ _).2]; exact k2'
  obtain ⟨g1', k1''⟩ := noGlobal_state q1 k2'' ev1'
  have f1' := lk1.fits f1
  have n1' : Fresh (putP tg2 v2' ps) (putO tg2 v2' par) (putG tg2 v2' s2') tg1 := by
    refine (fresh_put f2').2 ⟨?_, fun e => hne e.symm⟩
    cases tg1 with
    | global g => show StrMap.get s2'.globals g = none; rw [g2']; exact n1
    | _ => exact n1
  -- the rest
  have hp : AgreeOff S (fun _ => False) (putP tg2 v2 (putP tg1 v1 ps)) (putP tg1 v1' (putP tg2 v2' ps)) := by
    intro y _
    simp only [find_put]
    by_cases e : tg1 = .field y
    · have e' : tg2 ≠ .field y := fun e' => hne (e'.trans e.symm)
      have hn : ps.find? (fun p => p.field == y) = none := find_none_iff.2 (by rw [e] at n1; exact n1)
      simp only [if_pos e, if_neg e', hn]
      exact .inr ⟨_, _, rfl, rfl, lk1⟩
    · by_cases e' : tg2 = .field y
      · have hn : ps.find? (fun p => p.field == y) = none := find_none_iff.2 (by rw [e'] at n2; exact n2)
        simp only [if_neg e, if_pos e', hn]
        exact .inr ⟨_, _, rfl, rfl, lk2⟩
      · simp only [if_neg e, if_neg e']
        exact LikeGet.refl _
  have hr : LikeO S (putO tg2 v2 (putO tg1 v1 par)) (putO tg1 v1' (putO tg2 v2' par)) := by
    have : putO tg1 v1' (putO tg2 v2' par) = putO tg2 v2' (putO tg1 v1' par) := by
      cases tg1 <;> cases tg2 <;> first | rfl | exact absurd rfl hne
    rw [this]
    exact likeO_put lk2 f2 (likeO_put lk1 f1 rfl)
  have hst : RelSt S (fun _ => False) (putG tg2 v2 s2) (putG tg1 v1' s1') := by
    refine ⟨fun x _ => ?_, fun x => ?_, by rw [(putG_cache _ _ _).2]; exact k2, by rw [(putG_cache _ _ _).2]; exact k1''⟩
    · by_cases e : tg1 = .global x
      · have e' : tg2 ≠ .global x := fun e' => hne (e'.trans e.symm)
        rw [putG_get tg2 _ _ e', g2]
        subst e
        rw [putG_self, putG_self]
        exact .inr ⟨_, _, rfl, rfl, lk1⟩
      · rw [putG_get tg1 v1' s1' e, g1']
        by_cases e' : tg2 = .global x
        · subst e'
          rw [putG_self, putG_self]
          exact .inr ⟨_, _, rfl, rfl, lk2⟩
        · rw [putG_get tg2 _ _ e', putG_get tg2 _ _ e', g2, g2', putG_get tg1 _ _ e, g1]
          exact LikeGet.refl _
    · rw [(putG_cache _ _ _).1, (putG_cache _ _ _).1]
      exact hcache x
  obtain ⟨Q, Q', r', st1', h1, h2, h3, h4, h5⟩ := evalFields_off (U := fun _ => False) (P := False) hl B (fun _ h => h.elim) (fun _ h => h.elim) hp (fun _ => hr) (fun h => h.elim)
    hst h
  refine ⟨_, _, _, evalFields_cons_ok.2 ⟨n2, _, _, ev2', f2', evalFields_cons_ok.2 ⟨n1', _, _, ev1', f1', h2⟩⟩, ?_, ?_, ?_, ?_, ?_⟩
  · rw [h1, List.map_append, List.map_append, likeP_dataL h3]
    refine List.Perm.append_right _ ?_
    refine (putP_data lk1.symm _ _ (putP_data lk2.symm ps ps (List.Perm.refl _))).trans ?_
    exact (putP_swap tg1 tg2 v1 v2 ps).symm
  · rcases h4 with ⟨-, h4⟩ | ⟨h4, -⟩
    · exact (likeO_dataP h4).symm
    · exact h4.elim
  · rw [h1]; exact hp.append h3.agree
  · rcases h4 with ⟨-, h4⟩ | ⟨h4, -⟩
    · exact h4
    · exact h4.elim
  · exact h5

/-- Leaving out a definition that is not used. -/
theorem evalFields_less {tg : Target} {e : Expr} {B : List Field} (q1 : e.definesNoGlobal = true)
    (qi : e.includeFree = true ∨ Field.includeFreeL B = true) (hs : ∀ x, tg = .field x → Field.skipsL x B = true)
    (ha : ∀ g, tg = .global g → Field.avoidsL g B = true) {n d : Nat} {ps q : List Pair} {par r : Option Obj} {st st1 : ESt} (w : Warm S st.rt)
    (hn : (ps.map Pair.field).Nodup) (h : evalFields fs file stack (loadN fs n) (.mk tg e :: B) d ps par st = .ok ((q, r), st1)) :
    ∃ q' r' st1', evalFields fs file stack (loadN fs n) B d ps par st = .ok ((q', r'), st1') ∧
      ∀ i j, (Obj.mk i q' r').data = ((Obj.mk j q r).less tg).data := by
  have hl := loadN_sim (S := S) (fs := fs) n
  have hnd := evalFields_nodup _ h hn
  obtain ⟨n1, v1, s1, ev1, f1, h⟩ := evalFields_cons_ok.1 h
  obtain ⟨g1, k1⟩ := noGlobal_state q1 w ev1
  have k1' : Warm S (putG tg v1 s1).rt := by rw [(putG_cache _ _ _).2]; exact k1
  have r1 : RelSt S (fun x => tg = .global x) (putG tg v1 s1) { st with cache := s1.cache } :=
    relSt_of k1' w (fun x hx => by rw [putG_get _ _ _ hx, g1]) (by rw [(putG_cache _ _ _).1])
  have hpar : (¬ tg = .parent → LikeO S (putO tg v1 par) par) ∧ (tg = .parent → (putO tg v1 par).isSome) := by
    cases tg with
    | parent => obtain ⟨o, rfl⟩ := f1 rfl; exact ⟨fun h => absurd rfl h, fun _ => rfl⟩
    | _ => exact ⟨fun _ => rfl, fun h => by cases h⟩
  obtain ⟨Q, Q', r', st2', h1, h2', h3, h4, -⟩ := evalFields_off hl B hs ha (agree_put tg v1 ps) hpar.1 hpar.2 r1 h
  have h2 : ∃ st1', evalFields fs file stack (loadN fs n) B d ps par st = .ok ((ps ++ Q', r'), st1') := by
    rcases qi with qi | qi
    · have c1 := (evalExpr_noLoad e qi _ _ _ _ _ ev1).1
      exact ⟨_, by rw [c1] at h2'; exact h2'⟩
    · exact ⟨_, (evalFields_noLoad B qi _ _ _ _ _ _ h2').2 st.cache⟩
  obtain ⟨st1', h2⟩ := h2
  refine ⟨_, _, _, h2, fun i j => ?_⟩
  have hq := likeP_dataL h3
  have hrr : Obj.dataP r' = Obj.dataP ((Obj.mk j q r).less tg).parent := by
    rcases h4 with ⟨h5, h4⟩ | ⟨rfl, -, h5⟩
    · rw [← likeO_dataP h4]
      cases tg with
      | parent => exact absurd rfl h5
      | _ => rfl
    · rw [h5, show par = none from n1]
      rfl
  have hqq : (ps ++ Q').map Pair.data = ((Obj.mk j q r).less tg).pairs.map Pair.data := by
    cases tg with
    | field x =>
      show _ = (q.filter (fun p => p.field != x)).map Pair.data
      rw [h1] at hnd ⊢
      simp only [putP, List.map_append, List.map_cons, List.append_assoc, List.singleton_append] at hnd
      rw [List.nodup_append] at hnd
      obtain ⟨-, a2, a3⟩ := hnd
      rw [List.nodup_cons] at a2
      have b1 : ps.filter (fun p => p.field != x) = ps := List.filter_eq_self.2 fun p hp => by
        simp only [bne_iff_ne]
        exact a3 _ (List.mem_map.2 ⟨p, hp, rfl⟩) _ List.mem_cons_self
      have b2 : Q.filter (fun p => p.field != x) = Q := List.filter_eq_self.2 fun p hp => by
        simp only [bne_iff_ne]
        rintro rfl
        exact a2.1 (List.mem_map.2 ⟨p, hp, rfl⟩)
      have b3 : [Pair.mk x v1].filter (fun p => p.field != x) = [] := by simp [Pair.field]
      simp only [putP, List.filter_append, b1, b2, b3, List.append_nil, List.map_append, hq]
    | parent => show _ = q.map Pair.data; rw [h1]; simp [putP, hq]
    | global g => show _ = q.map Pair.data; rw [h1]; simp [putP, hq]
  cases hless : (Obj.mk j q r).less tg with
  | mk j' q2 r2 =>
    rw [hless] at hqq hrr
    simp only [Obj.data, Pair.dataL_eq]
    rw [hqq, hrr]
    rfl

/-- Exchanging two independent definitions of a document. -/
theorem meaning_exchange {A B : List Field} {tg1 tg2 : Target} {e1 e2 : Expr} (q1 : e1.definesNoGlobal = true) (q2 : e2.definesNoGlobal = true)
    (qi : e1.includeFree = true ∨ e2.includeFree = true) (w2 : e2.without tg1 = true)
    (w1 : e1.without tg2 = true) {rt : Rt} (w : Warm S rt) {o : Obj} {st : ESt}
    (h : meaning fs file stack (A ++ .mk tg1 e1 :: .mk tg2 e2 :: B) rt = .ok (o, st)) :
    ∃ o' st', meaning fs file stack (A ++ .mk tg2 e2 :: .mk tg1 e1 :: B) rt = .ok (o', st') ∧
      (o'.pairs.map Pair.data).Perm (o.pairs.map Pair.data) ∧ Obj.dataP o'.parent = Obj.dataP o.parent := by
  unfold meaning at *
  rw [evalDoc_parts] at *
  cases hA : evalFields fs file stack (loadN fs (fs.nodes.length + 1)) A 1 [] none ⟨[], [], rt⟩ with
  | error k => rw [hA] at h; cases h
  | ok x =>
    obtain ⟨⟨ps, par⟩, st1⟩ := x
    have w1' := evalFields_warm (S := S) w hA
    rw [hA] at h
    dsimp only at *
    cases hD : evalFields fs file stack (loadN fs (fs.nodes.length + 1)) (.mk tg1 e1 :: .mk tg2 e2 :: B) 1 ps par st1 with
    | error k => rw [hD] at h; cases h
    | ok y =>
      obtain ⟨⟨q, r⟩, st2⟩ := y
      rw [hD] at h
      cases h
      obtain ⟨q', r', st1', h1, h2, h3, -⟩ := evalFields_exchange q1 q2 qi w2 w1 w1' hD
      rw [h1]
      exact ⟨_, _, rfl, h2, h3⟩

/-- Leaving out a definition of a document. -/
theorem meaning_less {A B : List Field} {tg : Target} {e : Expr} (q1 : e.definesNoGlobal = true)
    (qi : e.includeFree = true ∨ Field.includeFreeL B = true) (hs : ∀ x, tg = .field x → Field.skipsL x B = true)
    (ha : ∀ g, tg = .global g → Field.avoidsL g B = true) {rt : Rt} (w : Warm S rt) {o : Obj} {st : ESt}
    (h : meaning fs file stack (A ++ .mk tg e :: B) rt = .ok (o, st)) :
    ∃ o' st', meaning fs file stack (A ++ B) rt = .ok (o', st') ∧ o'.data = (o.less tg).data := by
  unfold meaning at *
  rw [evalDoc_parts] at *
  cases hA : evalFields fs file stack (loadN fs (fs.nodes.length + 1)) A 1 [] none ⟨[], [], rt⟩ with
  | error k => rw [hA] at h; cases h
  | ok x =>
    obtain ⟨⟨ps, par⟩, st1⟩ := x
    have w1' := evalFields_warm (S := S) w hA
    rw [hA] at h
    dsimp only at *
    cases hD : evalFields fs file stack (loadN fs (fs.nodes.length + 1)) (.mk tg e :: B) 1 ps par st1 with
    | error k => rw [hD] at h; cases h
    | ok y =>
      obtain ⟨⟨q, r⟩, st2⟩ := y
      rw [hD] at h
      cases h
      obtain ⟨q', r', st1', h1, h2⟩ := evalFields_less q1 qi hs ha w1' (evalFields_nodup A hA (by simp)) hD
      rw [h1]
      exact ⟨_, _, rfl, h2 _ _⟩

/-- The fields of a document have different names. -/
theorem meaning_nodup {d : List Field} {rt : Rt} {o : Obj} {st : ESt} (h : meaning fs file stack d rt = .ok (o, st)) :
    (o.pairs.map Pair.field).Nodup := by
  unfold meaning at h
  rw [← List.append_nil d, evalDoc_parts] at h
  cases hA : evalFields fs file stack (loadN fs (fs.nodes.length + 1)) d 1 [] none ⟨[], [], rt⟩ with
  | error k => rw [hA] at h; cases h
  | ok x =>
    obtain ⟨⟨ps, par⟩, st1⟩ := x
    rw [hA] at h
    cases h
    exact evalFields_nodup d hA (by simp)

/-- Rearranging a document. -/
theorem meaning_rearranged {d d' : List Field} (h : Rearranged d d') {rt : Rt} (w : Warm S rt) : ∀ {o : Obj} {st : ESt},
    meaning fs file stack d rt = .ok (o, st) → ∃ o' st', meaning fs file stack d' rt = .ok (o', st') ∧
      (o'.pairs.map Pair.data).Perm (o.pairs.map Pair.data) ∧ Obj.dataP o'.parent = Obj.dataP o.parent := by
  induction h with
  | same d => exact fun h => ⟨_, _, h, List.Perm.refl _, rfl⟩
  | exchange A B tg1 tg2 e1 e2 q1 q2 q w2 w1 => exact fun h => meaning_exchange q1 q2 q w2 w1 w h
  | trans _ _ ih1 ih2 =>
    intro o st h
    obtain ⟨o1, st1, h1, p1, r1⟩ := ih1 h
    obtain ⟨o2, st2, h2, p2, r2⟩ := ih2 h1
    exact ⟨o2, st2, h2, p2.trans p1, r2.trans r1⟩

end

end Over
