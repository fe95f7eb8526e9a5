import Verif.Code.Asm

/-
What the interpreter of Python 2.6 does with a code object (Python/ceval.c), as far as the instructions of `Asm` go.
The objects, and what the operations on them do, are given by a `Host`.
-/
namespace Verif.Code

open Verif.Py

/-- What an operation of Python gives: a result or an exception, and the state of the world. -/
def Act (V W A : Type) := W → Except V A × W

/-- Binary operations. -/
inductive Bin where
  | mul | div | mod | add | sub | subscr
  deriving DecidableEq, Repr

/-- Objects `V` and the world `W` in which they live. -/
structure Host (V W : Type) where
  getAttr : V → Str → Act V W V
  setAttr : V → Str → V → Act V W Unit
  call : V → List V → Act V W V
  binary : Bin → V → V → Act V W V
  negative : V → Act V W V
  compare : Cmp → V → V → Act V W V
  truth : V → Act V W Bool
  iter : V → Act V W V
  next : V → Act V W (Option V)
  tuple : List V → V

variable {V W N : Type}

/-- The state of a frame: the stack, its top first, the local variables (`N` are the names or numbers of variables). -/
structure Frame (V N : Type) where
  stack : List V
  locals : N → Option V

/-- How a function ends. `crash`: the interpreter reads or writes memory that it should not, or an instruction meets a
variable without a value. -/
inductive Out (V W : Type) where
  | ret (v : V) (w : W)
  | raised (e : V) (w : W)
  | crash

/-- What an instruction with an argument that has been looked up does: go on, jump, or end. -/
inductive Eff (V W N : Type) where
  | go (f : Frame V N) (w : W)
  | jump (f : Frame V N) (w : W)
  | out (o : Out V W)

/-- Instructions whose arguments have been looked up. -/
inductive Dec (V N : Type) where
  | op (o : Op)
  | num (o : NumOp) (n : Nat)
  | const (v : V)
  | fast (o : FastOp) (name : N)
  | attr (o : AttrOp) (name : Str)
  | cmp (c : Cmp)
  | jump (o : JumpOp)

/-- Go on with a result, or with the exception. -/
def Eff.of {A : Type} (r : Except V A × W) (k : A → W → Eff V W N) : Eff V W N :=
  match r with
  | (.ok a, w) => k a w
  | (.error e, w) => .out (.raised e w)

/-- The operation of a binary instruction. -/
def Op.bin : Op → Option Bin
  | .binaryMultiply => some .mul
  | .binaryDivide => some .div
  | .binaryModulo => some .mod
  | .binaryAdd => some .add
  | .binarySubtract => some .sub
  | .binarySubscr => some .subscr
  | _ => none

/-- The instructions without an argument (ceval.c). -/
def stepOp (H : Host V W) (o : Op) (f : Frame V N) (w : W) : Eff V W N :=
  match o, f.stack with
  | .popTop, _ :: s => .go { f with stack := s } w
  | .rotTwo, a :: b :: s => .go { f with stack := b :: a :: s } w
  | .rotThree, a :: b :: c :: s => .go { f with stack := b :: c :: a :: s } w
  | .rotFour, a :: b :: c :: d :: s => .go { f with stack := b :: c :: d :: a :: s } w
  | .unaryNegative, a :: s => .of (H.negative a w) fun v w => .go { f with stack := v :: s } w
  | .getIter, a :: s => .of (H.iter a w) fun v w => .go { f with stack := v :: s } w
  | .returnValue, a :: _ => .out (.ret a w)
  | o, b :: a :: s =>
    match o.bin with
    | some x => .of (H.binary x a b w) fun v w => .go { f with stack := v :: s } w
    | none => .out .crash
  | _, _ => .out .crash

/-- BUILD_TUPLE and CALL_FUNCTION (ceval.c).  The argument of CALL_FUNCTION is the number of positional arguments, with
256 times the number of keyword arguments, of which no use is made here: `crash`. -/
def stepNum (H : Host V W) (o : NumOp) (n : Nat) (f : Frame V N) (w : W) : Eff V W N :=
  match o with
  | .buildTuple =>
    if n ≤ f.stack.length then .go { f with stack := H.tuple (f.stack.take n).reverse :: f.stack.drop n } w
    else .out .crash
  | .callFunction =>
    if n ≥ 256 then .out .crash
    else
      match f.stack.drop n with
      | func :: s => .of (H.call func (f.stack.take n).reverse w) fun v w => .go { f with stack := v :: s } w
      | [] => .out .crash

/-- The instructions for local variables (ceval.c). -/
def stepFast [DecidableEq N] (o : FastOp) (name : N) (f : Frame V N) (w : W) : Eff V W N :=
  match o with
  | .load =>
    match f.locals name with
    | some v => .go { f with stack := v :: f.stack } w
    | none => .out .crash
  | .store =>
    match f.stack with
    | v :: s => .go { stack := s, locals := fun x => if x = name then some v else f.locals x } w
    | [] => .out .crash
  | .delete =>
    match f.locals name with
    | some _ => .go { f with locals := fun x => if x = name then none else f.locals x } w
    | none => .out .crash

/-- LOAD_ATTR and STORE_ATTR (ceval.c). -/
def stepAttr (H : Host V W) (o : AttrOp) (name : Str) (f : Frame V N) (w : W) : Eff V W N :=
  match o, f.stack with
  | .load, a :: s => .of (H.getAttr a name w) fun v w => .go { f with stack := v :: s } w
  | .store, a :: v :: s => .of (H.setAttr a name v w) fun _ w => .go { f with stack := s } w
  | _, _ => .out .crash

/-- The jumps (ceval.c); JUMP_IF_TRUE and JUMP_IF_FALSE leave the value on the stack, FOR_ITER takes the iterator away at
its end. -/
def stepJump (H : Host V W) (o : JumpOp) (f : Frame V N) (w : W) : Eff V W N :=
  match o, f.stack with
  | .jumpForward, _ => .jump f w
  | .jumpIfTrue, a :: _ => .of (H.truth a w) fun t w => if t then .jump f w else .go f w
  | .jumpIfFalse, a :: _ => .of (H.truth a w) fun t w => if t then .go f w else .jump f w
  | .forIter, a :: s => .of (H.next a w) fun x w =>
    match x with
    | some v => .go { f with stack := v :: a :: s } w
    | none => .jump { f with stack := s } w
  | _, _ => .out .crash

/-- One instruction. -/
def step [DecidableEq N] (H : Host V W) (d : Dec V N) (f : Frame V N) (w : W) : Eff V W N :=
  match d with
  | .op o => stepOp H o f w
  | .num o n => stepNum H o n f w
  | .const v => .go { f with stack := v :: f.stack } w
  | .fast o name => stepFast o name f w
  | .attr o name => stepAttr H o name f w
  | .cmp c =>
    match f.stack with
    | b :: a :: s => .of (H.compare c a b w) fun v w => .go { f with stack := v :: s } w
    | _ => .out .crash
  | .jump o => stepJump H o f w

/-- The entry of an opcode in a table. -/
def lookupOp (c : Nat) (l : List (Nat × Op)) : Option Op := (l.find? (fun x => x.1 = c)).map Prod.snd

/-- The instruction with an opcode that has no argument. -/
def decode0 (c : Nat) : Option (Dec V N) :=
  (lookupOp c [(1, .popTop), (2, .rotTwo), (3, .rotThree), (5, .rotFour), (11, .unaryNegative), (20, .binaryMultiply),
    (21, .binaryDivide), (22, .binaryModulo), (23, .binaryAdd), (24, .binarySubtract), (25, .binarySubscr),
    (68, .getIter), (83, .returnValue)]).map .op

/-- The instruction with an opcode and an argument; for jumps the argument is not looked at. -/
def decode1 (code : Code V) (c : Nat) (n : Nat) : Option (Dec V Nat) :=
  if c = 100 then code.consts[n]?.map .const
  else if c = 106 then ([.lt, .le, .eq, .ne, .gt, .ge][n]?).map .cmp
  else if c = 102 then some (.num .buildTuple n)
  else if c = 131 then some (.num .callFunction n)
  else if c = 124 then if n < code.locals.length then some (.fast .load n) else none
  else if c = 125 then if n < code.locals.length then some (.fast .store n) else none
  else if c = 126 then if n < code.locals.length then some (.fast .delete n) else none
  else if c = 95 then code.names[n]?.map (.attr .store)
  else if c = 105 then code.names[n]?.map (.attr .load)
  else if c = 93 then some (.jump .forIter)
  else if c = 110 then some (.jump .jumpForward)
  else if c = 111 then some (.jump .jumpIfFalse)
  else if c = 112 then some (.jump .jumpIfTrue)
  else none

/-- The instruction at a place in the bytes: its length, its meaning, and its argument (ceval.c: NEXTOP, NEXTARG,
HAS_ARG; HAVE_ARGUMENT is 90). -/
def fetch (code : Code V) (pc : Nat) : Option (Nat × Dec V Nat × Nat) :=
  match code.bytes.drop pc with
  | [] => none
  | c :: rest =>
    if c < 90 then (decode0 c).map fun d => (1, d, 0)
    else
      match rest with
      | lo :: hi :: _ => (decode1 code c (lo + 256 * hi)).map fun d => (3, d, lo + 256 * hi)
      | _ => none

/-- The loop of the interpreter, for a number of instructions; `none` if that was not enough.  The stack has as many
places as the code object says. -/
def exec (H : Host V W) (code : Code V) : Nat → Nat → Frame V Nat → W → Option (Out V W)
  | 0, _, _, _ => none
  | fuel + 1, pc, f, w =>
    match fetch code pc with
    | none => some .crash
    | some (len, d, n) =>
      match step H d f w with
      | .out o => some o
      | .go f w =>
        if (f.stack.length : Int) ≤ code.stackSize then exec H code fuel (pc + len) f w else some .crash
      | .jump f w =>
        if (f.stack.length : Int) ≤ code.stackSize then exec H code fuel (pc + len + n) f w else some .crash

/-- The call of a function with the given code: the arguments are the first local variables. -/
def callCode (H : Host V W) (code : Code V) (args : List V) (fuel : Nat) (w : W) : Option (Out V W) :=
  exec H code fuel 0 { stack := [], locals := fun i => args[i]? } w

end Verif.Code
