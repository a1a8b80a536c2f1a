import Verif.Model.Styled

/-!
# What `css!` should mean in code with styled components

In terms of the code that the user writes, without hidden variables, marks or macros.
-/

namespace Spec

open Styled

/-- What `css!` means at a place of the user's code. -/
inductive Meaning where
  /-- not in a styled component: the imported macro, without a manager -/
  | imported
  /-- the macro of the user that is defined at the place with this label -/
  | own (l : Nat)
  /-- with the manager that the styled component with this label gets from its context -/
  | component (l : Nat)
  /-- in a function inside of a styled component that is not itself one: does not compile -/
  | lost
deriving DecidableEq, Repr

/-- What `css!` means in the body of a function that stands at a place with meaning `p`. -/
def Meaning.inside (p : Meaning) (styled : Bool) (l : Nat) : Meaning :=
  if styled then .component l
  else match p with
    | .component _ => .lost
    | p => p

mutual
/-- The meaning of every `css!` in an expression, those in its arguments first. -/
def meanings (p : Meaning) : Expr → List Meaning
  | .var _ => []
  | .css args => meaningsEs p args ++ [p]
  | .app es => meaningsEs p es
  | .block b => meaningsSs p b
  | .closure _ _ b => meaningsSs p b
  | .cond c a b => meanings p c ++ meaningsSs p a ++ meaningsSs p b
  | .loop b => meaningsSs p b
/-- The same for several expressions. -/
def meaningsEs (p : Meaning) : List Expr → List Meaning
  | [] => []
  | e :: es => meanings p e ++ meaningsEs p es
/-- The same for the statements of a block; a macro `css` of the user counts up to its end. -/
def meaningsSs (p : Meaning) : List Stmt → List Meaning
  | [] => []
  | .expr e :: ss => meanings p e ++ meaningsSs p ss
  | .let_ _ _ e :: ss => meanings p e ++ meaningsSs p ss
  | .fn_ styled l _ b :: ss => meaningsSs (p.inside styled l) b ++ meaningsSs p ss
  | .macro_ l :: ss => meaningsSs (.own l) ss
end

/-! `here`: `css!` means the macro of the component whose body we are in. -/

mutual
/-- The expression uses the `css!` of the component (functions inside of it do not count). -/
def Asks (here : Bool) : Expr → Prop
  | .var _ => False
  | .css args => here = true ∨ AsksEs here args
  | .app es => AsksEs here es
  | .block b => AsksSs here b
  | .closure _ _ b => AsksSs here b
  | .cond c a b => Asks here c ∨ AsksSs here a ∨ AsksSs here b
  | .loop b => AsksSs here b
/-- The same for several expressions. -/
def AsksEs (here : Bool) : List Expr → Prop
  | [] => False
  | e :: es => Asks here e ∨ AsksEs here es
/-- The same for the statements of a block. -/
def AsksSs (here : Bool) : List Stmt → Prop
  | [] => False
  | .expr e :: ss => Asks here e ∨ AsksSs here ss
  | .let_ _ _ e :: ss => Asks here e ∨ AsksSs here ss
  | .fn_ _ _ _ _ :: ss => AsksSs here ss
  | .macro_ _ :: ss => AsksSs false ss
end

mutual
/-- There is a closure with `move` in the expression that uses the `css!` of the component. -/
def Takes (here : Bool) : Expr → Prop
  | .var _ => False
  | .css args => TakesEs here args
  | .app es => TakesEs here es
  | .block b => TakesSs here b
  | .closure mv _ b => (mv = true ∧ AsksSs here b) ∨ TakesSs here b
  | .cond c a b => Takes here c ∨ TakesSs here a ∨ TakesSs here b
  | .loop b => TakesSs here b
/-- The same for several expressions. -/
def TakesEs (here : Bool) : List Expr → Prop
  | [] => False
  | e :: es => Takes here e ∨ TakesEs here es
/-- The same for the statements of a block. -/
def TakesSs (here : Bool) : List Stmt → Prop
  | [] => False
  | .expr e :: ss => Takes here e ∨ TakesSs here ss
  | .let_ _ _ e :: ss => Takes here e ∨ TakesSs here ss
  | .fn_ _ _ _ _ :: ss => TakesSs here ss
  | .macro_ _ :: ss => TakesSs false ss
end

mutual
/-- No `css!` of a component comes after a closure with `move` that uses it, and there is no
such closure in a loop. -/
def Kept (here : Bool) : Expr → Prop
  | .var _ => True
  | .css args => KeptEs here args ∧ (here = true → ¬ TakesEs here args)
  | .app es => KeptEs here es
  | .block b => KeptSs here b
  | .closure _ _ b => KeptSs here b
  | .cond c a b =>
    Kept here c ∧ KeptSs here a ∧ KeptSs here b ∧ (Takes here c → ¬ AsksSs here a ∧ ¬ AsksSs here b)
  | .loop b => KeptSs here b ∧ ¬ TakesSs here b
/-- The same for several expressions. -/
def KeptEs (here : Bool) : List Expr → Prop
  | [] => True
  | e :: es => Kept here e ∧ KeptEs here es ∧ (Takes here e → ¬ AsksEs here es)
/-- The same for the statements of a block and for the functions in it. -/
def KeptSs (here : Bool) : List Stmt → Prop
  | [] => True
  | .expr e :: ss => Kept here e ∧ KeptSs here ss ∧ (Takes here e → ¬ AsksSs here ss)
  | .let_ _ _ e :: ss => Kept here e ∧ KeptSs here ss ∧ (Takes here e → ¬ AsksSs here ss)
  | .fn_ styled _ _ b :: ss => KeptSs styled b ∧ KeptSs here ss
  | .macro_ _ :: ss => KeptSs false ss
end

mutual
/-- The same code without the attributes. -/
def withoutE : Expr → Expr
  | .var x => .var x
  | .css args => .css (withoutEs args)
  | .app es => .app (withoutEs es)
  | .block b => .block (withoutSs b)
  | .closure mv ps b => .closure mv ps (withoutSs b)
  | .cond c a b => .cond (withoutE c) (withoutSs a) (withoutSs b)
  | .loop b => .loop (withoutSs b)
/-- The same for a statement. -/
def withoutS : Stmt → Stmt
  | .expr e => .expr (withoutE e)
  | .let_ x l e => .let_ x l (withoutE e)
  | .fn_ _ l ps b => .fn_ false l ps (withoutSs b)
  | .macro_ l => .macro_ l
/-- The same for several expressions. -/
def withoutEs : List Expr → List Expr
  | [] => []
  | e :: es => withoutE e :: withoutEs es
/-- The same for several statements. -/
def withoutSs : List Stmt → List Stmt
  | [] => []
  | s :: ss => withoutS s :: withoutSs ss
end

mutual
/-- The variables that an expression of the user introduces, with the labels of the binders. -/
def bindersE : Expr → List (Str × Nat)
  | .var _ => []
  | .css args => bindersEs args
  | .app es => bindersEs es
  | .block b => bindersSs b
  | .closure _ ps b => ps ++ bindersSs b
  | .cond c a b => bindersE c ++ bindersSs a ++ bindersSs b
  | .loop b => bindersSs b
/-- The same for several expressions. -/
def bindersEs : List Expr → List (Str × Nat)
  | [] => []
  | e :: es => bindersE e ++ bindersEs es
/-- The same for several statements. -/
def bindersSs : List Stmt → List (Str × Nat)
  | [] => []
  | .expr e :: ss => bindersE e ++ bindersSs ss
  | .let_ x l e :: ss => (x, l) :: bindersE e ++ bindersSs ss
  | .fn_ _ _ ps b :: ss => ps ++ bindersSs b ++ bindersSs ss
  | .macro_ _ :: ss => bindersSs ss
end

mutual
/-- No functions, no macros `css` and no closures with `move` inside. -/
def PlainE : Expr → Prop
  | .var _ => True
  | .css args => PlainEs args
  | .app es => PlainEs es
  | .block b => PlainSs b
  | .closure mv _ b => mv = false ∧ PlainSs b
  | .cond c a b => PlainE c ∧ PlainSs a ∧ PlainSs b
  | .loop b => PlainSs b
/-- The same for several expressions. -/
def PlainEs : List Expr → Prop
  | [] => True
  | e :: es => PlainE e ∧ PlainEs es
/-- The same for several statements. -/
def PlainSs : List Stmt → Prop
  | [] => True
  | .expr e :: ss => PlainE e ∧ PlainSs ss
  | .let_ _ _ e :: ss => PlainE e ∧ PlainSs ss
  | .fn_ _ _ _ _ :: _ => False
  | .macro_ _ :: _ => False
end

/-- The uses of variables that the user wrote, with what they refer to. -/
def variableUses (us : List Use) : List (Str × Res) :=
  us.filterMap fun
    | .var x r => some (x, r)
    | .css _ => none

/-- What the calls of `css!` use: a binder stands for the manager of the component that has the
label. -/
def cssUses (us : List Use) : List Meaning :=
  us.filterMap fun
    | .var _ _ => none
    | .css .imported => some .imported
    | .css (.own l) => some (.own l)
    | .css (.manager (.binder l) _) => some (.component l)
    | .css (.manager _ _) => some .lost

end Spec
