import Verif.Lemmas.Project
import Verif.Lemmas.Unamb

/-!
# Texts with plain includes only
-/

set_option linter.unusedSectionVars false
set_option linter.unusedVariables false

namespace Over

variable [Unicode]

theorem gap_not_quote {g x : Str} (hg : Gap g) (h : (g ++ x).head? = some '"') : g = [] := by
  cases hg with
  | nil => rfl
  | ws h1 _ => simp at h; subst h; exact absurd h1 (by decide)
  | comment _ _ => simp at h

/-- What begins with a quote is a string literal. -/
theorem quoted_term {t : Term} {s : Str} (h : SpTerm t s) (x : Str) (hq : (s ++ x).head? = some '"') : ∃ b, t = .str b := by
  obtain ⟨c, r, rfl, hc⟩ := h.cls
  simp at hq
  subst hq
  cases t <;> first | exact ⟨_, rfl⟩ | (exfalso; revert hc; simp [headClass, Term.cls])

theorem quoted_expr {e : Expr} {g s x : Str} (hg : Gap g) (h : SpExpr e s) (hq : (g ++ (s ++ x)).head? = some '"') :
    ∃ b r, e = .mk (.str b) r := by
  have hg0 := gap_not_quote hg hq
  subst hg0
  cases h with
  | @mk t r s1 u ht hu =>
    rw [List.nil_append, List.append_assoc] at hq
    obtain ⟨b, rfl⟩ := quoted_term ht _ hq
    exact ⟨b, r, rfl⟩

variable {T : Str} (hT : PlainText T) {P : Str → Prop}
include hT

mutual
theorem term_barely : ∀ (t : Term) (u s w : Str), SpTerm t s → T = u ++ (s ++ w) → t.barely P
  | .str _, _, _, _, _, _ => trivial
  | .int _, _, _, _, _, _ => trivial
  | .frac _, _, _, _, _, _ => trivial
  | .name _, _, _, _, _, _ => trivial
  | .dot x t, u, s, w, h, e => by
    cases h with
    | @dot _ s1 _ _ _ h1 => exact term_barely t (u ++ (x ++ ['.'])) s1 w h1 (by simp [e])
  | .neg t, u, s, w, h, e => by
    cases h with
    | @neg _ s1 h1 => exact term_barely t (u ++ ['-']) s1 w h1 (by simp [e])
  | .pos t, u, s, w, h, e => by
    cases h with
    | @pos _ s1 h1 => exact term_barely t (u ++ ['+']) s1 w h1 (by simp [e])
  | .arr es, u, s, w, h, e => by
    cases h with
    | @arr _ s1 h1 => exact items_barely es false (u ++ ['[']) s1 (']' :: w) h1 (by simp [e])
  | .tup es, u, s, w, h, e => by
    cases h with
    | @tup _ s1 h1 => exact items_barely es false (u ++ ['(']) s1 (')' :: w) h1 (by simp [e])
  | .obj fds, u, s, w, h, e => by
    cases h with
    | @obj _ s1 h1 => exact fields_barely fds false (u ++ ['{']) s1 ('}' :: w) h1 (by simp [e])
  | .incl ex, u, s, w, h, e => by
    cases h with
    | @incl _ s1 h1 =>
      cases h1 with
      | @cons _ g s2 r _ _ _ h2 _ _ => exact expr_barely ex (u ++ '<' :: g) s2 (r ++ '>' :: w) h2 (by simp [e])
  | .inclAs (.mk t ops) ex, u, s, w, h, e => by
    cases h with
    | @inclAs _ _ s1 h1 =>
      cases h1 with
      | @cons _ g s2 r _ _ hg h2 h3 _ =>
        have hq := hT u (g ++ (s2 ++ (r ++ '>' :: w))) (by simp [e])
        obtain ⟨b, ops', he⟩ := quoted_expr hg h2 hq
        cases he
        cases h3 with
        | @cons _ g' s3 r' _ _ _ h4 _ _ =>
          refine ⟨?_, expr_barely ex (u ++ '<' :: (g ++ (s2 ++ g'))) s3 (r' ++ '>' :: w) h4 (by simp [e])⟩
          cases h2 with
          | @mk _ _ s4 v _ h5 => exact ops_barely ops (u ++ '<' :: (g ++ s4)) v (g' ++ (s3 ++ (r' ++ '>' :: w))) h5 (by simp [e])
termination_by structural t => t
theorem expr_barely : ∀ (ex : Expr) (u s w : Str), SpExpr ex s → T = u ++ (s ++ w) → ex.barely P
  | .mk t r, u, s, w, h, e => by
    cases h with
    | @mk _ _ s1 v h1 h2 => exact ⟨term_barely t u s1 (v ++ w) h1 (by simp [e]), ops_barely r (u ++ s1) v w h2 (by simp [e])⟩
termination_by structural t => t
theorem ops_barely : ∀ (r : List OpTerm) (u s w : Str), SpOps r s → T = u ++ (s ++ w) → OpTerm.barelyL P r
  | [], _, _, _, _, _ => trivial
  | .mk op t :: r, u, s, w, h, e => by
    cases h with
    | @cons _ _ _ s1 v h1 h2 =>
      exact ⟨term_barely t (u ++ [opChar op]) s1 (v ++ w) h1 (by simp [e]), ops_barely r (u ++ opChar op :: s1) v w h2 (by simp [e])⟩
termination_by structural t => t
theorem items_barely : ∀ (es : List Expr) (eof : Bool) (u s w : Str), SpItems eof es s → T = u ++ (s ++ w) → Expr.barelyL P es
  | [], _, _, _, _, _, _ => trivial
  | ex :: es, eof, u, s, w, h, e => by
    cases h with
    | @cons _ g s1 r _ _ _ h1 h2 _ =>
      exact ⟨expr_barely ex (u ++ g) s1 (r ++ w) h1 (by simp [e]), items_barely es eof (u ++ (g ++ s1)) r w h2 (by simp [e])⟩
termination_by structural t => t
theorem fields_barely : ∀ (fds : List Field) (eof : Bool) (u s w : Str), SpFields eof fds s → T = u ++ (s ++ w) → Field.barely P fds
  | [], _, _, _, _, _, _ => trivial
  | .mk tg ex :: fds, eof, u, s, w, h, e => by
    cases h with
    | @cons _ g n g' s1 r _ _ _ _ _ _ h1 h2 _ =>
      exact ⟨expr_barely ex (u ++ (g ++ (n ++ ':' :: g'))) s1 (r ++ w) h1 (by simp [e]),
        fields_barely fds eof (u ++ (g ++ (n ++ ':' :: (g' ++ s1)))) r w h2 (by simp [e])⟩
termination_by structural t => t
end

/-- A text with plain includes only includes nothing as `Str`. -/
theorem PlainText.kept (fs fs' : FS) (file : Option Str) : BareTextsKept fs fs' file T :=
  ⟨fun d h => fields_barely hT d true [] T [] h (by simp), fun es h => items_barely hT es true [] T [] h (by simp)⟩

end Over
