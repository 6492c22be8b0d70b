import Verif.Model.Run

/-!
# Renaming the variables of an expression

`f` gives every variable a new name.  Nothing else in the tree changes.
-/

namespace Oasis
variable {K : Type}

/-- the same tree with the variable `n` called `f n` -/
def Expr.ren (f : Str → Str) : Expr K → Expr K
  | .real v => .real v
  | .imag => .imag
  | .var n => .var (f n)
  | .undef => .undef
  | .euler => .euler
  | .pi => .pi
  | .mat m => .mat m
  | .un op a => .un op (a.ren f)
  | .bin op a b => .bin op (a.ren f) (b.ren f)
  | .absent => .absent

/-- the same decision about the renamed trees -/
def Ev.ren (f : Str → Str) : Ev K → Ev K
  | .eq a b => .eq (a.ren f) (b.ren f)
  | .drop c => .drop c
  | .pow a b => .pow a b
  | .log b a => .log b a
  | .iPow p => .iPow p
  | .zeroPow p => .zeroPow (p.ren f)
  | .negSqrt c x => .negSqrt c (x.ren f)
  | .powPow b p q => .powPow (b.ren f) (p.ren f) (q.ren f)
  | .logPow b x p => .logPow (b.ren f) (x.ren f) (p.ren f)
  | .negPow b c x => .negPow (b.ren f) c (x.ren f)
  | .magSum a b => .magSum (a.ren f) (b.ren f)
  | .rule676 a x n b y => .rule676 (a.ren f) (x.ren f) (n.ren f) (b.ren f) (y.ren f)
  | .rule693 a x n y m => .rule693 (a.ren f) (x.ren f) (n.ren f) (y.ren f) (m.ren f)
  | .sine a => .sine (a.ren f)
  | .powRule g r => .powRule (g.ren f) r
  | .logRule g h => .logRule (g.ren f) (h.ren f)
  | .nested a => .nested (a.ren f)
  | .stuck e => .stuck (e.ren f)
  | .constant q x => .constant (q.ren f) (f x)
  | .expInt y x => .expInt (f y) (f x)
  | .powInt p => .powInt p
  | .parts e => .parts (e.ren f)

/-- the same call about the renamed trees -/
def Req.ren (f : Str → Str) : Req K → Req K
  | .simp o e => .simp o (e.ren f)
  | .diff o v e => .diff o (v.ren f) (e.ren f)
  | .integ v e => .integ (v.ren f) (e.ren f)

/-- the same outcome (value, error, exception, undefined behaviour, or budget used up) with a renamed
value `φ` and a renamed log -/
def M.ren {α β : Type} (f : Str → Str) (φ : α → β) (m : M K α) : M K β :=
  Option.map (fun p => (p.1.map φ, p.2.map (Ev.ren f))) m

/-- A renaming that keeps different names different and leaves the name `C`, which `Integrate` uses
for the integration constant. -/
structure Renaming (f : Str → Str) : Prop where
  inj : ∀ m n, f m = f n → m = n
  const : f (chars! "C") = chars! "C"

end Oasis
