import Verif.Py

/-
The assembler of compiled XPath expressions: lib/xpath/compiler/assembler.py (flow graphs of basic blocks, stack size,
order of the blocks, tables, jump offsets, bytes).

Only the instructions that the `compile` methods of lib/xpath emit are modelled; the other entries of the assembler's
table of stack effects are not used by any of them.  The numbers are those of Python 2.6 (`dis.opmap`), the Python for
which this code is written: later ones have no JUMP_IF_TRUE, earlier ones no binary literal.  Not modelled: the limit
of the depth of recursion in Python.
-/
namespace Verif.Code

open Verif.Py

/-- Instructions without an argument. -/
inductive Op where
  | popTop | rotTwo | rotThree | rotFour | unaryNegative
  | binaryMultiply | binaryDivide | binaryModulo | binaryAdd | binarySubtract | binarySubscr
  | getIter | returnValue
  deriving DecidableEq, Repr

/-- Instructions whose argument is a number. -/
inductive NumOp where
  | buildTuple | callFunction
  deriving DecidableEq, Repr

/-- Instructions whose argument is a local variable. -/
inductive FastOp where
  | load | store | delete
  deriving DecidableEq, Repr

/-- Instructions whose argument is the name of an attribute. -/
inductive AttrOp where
  | load | store
  deriving DecidableEq, Repr

/-- The comparisons of `dis.cmp_op` that XPath has. -/
inductive Cmp where
  | lt | le | eq | ne | gt | ge
  deriving DecidableEq, Repr

/-- Jumps; all of them are relative (`dis.hasjrel`). -/
inductive JumpOp where
  | forIter | jumpForward | jumpIfFalse | jumpIfTrue
  deriving DecidableEq, Repr

/-- `instruction` (assembler.py:345-363) before the lookup of arguments; the target of a jump is the number of a block. -/
inductive Ins (V : Type) where
  | op (o : Op)
  | num (o : NumOp) (n : Nat)
  | const (v : V)
  | fast (o : FastOp) (name : Str)
  | attr (o : AttrOp) (name : Str)
  | cmp (c : Cmp)
  | jump (o : JumpOp) (target : Nat)
  deriving DecidableEq, Repr

/-- `instr.target`. -/
def Ins.target {V : Type} : Ins V → Option Nat
  | .jump _ t => some t
  | _ => none

/-- `basicblock` (assembler.py:366-379). -/
structure Block (V : Type) where
  ins : List (Ins V)
  next : Option Nat
  deriving DecidableEq, Repr

/-- `assembler`: the blocks by their number, and the current one (assembler.py:16-20). -/
structure Graph (V : Type) where
  blocks : List (Block V)
  current : Nat
  deriving DecidableEq, Repr

variable {V : Type}

/-- `__init__` (assembler.py:18-20). -/
def Graph.new : Graph V := { blocks := [⟨[], none⟩], current := 0 }

/-- `new_block` (assembler.py:22-25); the number of the block is the number of blocks before. -/
def Graph.newBlock (g : Graph V) : Graph V := { g with blocks := g.blocks ++ [⟨[], none⟩] }

/-- `next_block(block)` (assembler.py:27-33). -/
def Graph.nextBlock (b : Nat) (g : Graph V) : Graph V :=
  { blocks := g.blocks.modify g.current (fun k => { k with next := some b }), current := b }

/-- `next_block()` (assembler.py:27-33). -/
def Graph.nextNew (g : Graph V) : Graph V := g.newBlock.nextBlock g.blocks.length

/-- `emit` (assembler.py:35-51), the pairs of names and arguments being `Ins`. -/
def Graph.emit (is : List (Ins V)) (g : Graph V) : Graph V :=
  { g with blocks := g.blocks.modify g.current (fun k => { k with ins := k.ins ++ is }) }

/-- The block with a number. -/
def Graph.block (g : Graph V) (b : Nat) : Block V := g.blocks.getD b ⟨[], none⟩

/-- The effect of an instruction on the size of the stack (`stack_effect`, assembler.py:73-175, and 180-187). -/
def Ins.effect : Ins V → Int
  | .op .popTop => -1
  | .op .rotTwo => 0
  | .op .rotThree => 0
  | .op .rotFour => 0
  | .op .unaryNegative => 0
  | .op .getIter => 0
  | .op _ => -1
  | .num .buildTuple n => 1 - n
  | .num .callFunction n => -((n % 256 : Nat) + 2 * (n / 256 : Nat) : Int)
  | .const _ => 1
  | .fast .load _ => 1
  | .fast .store _ => -1
  | .fast .delete _ => 0
  | .attr .load _ => 0
  | .attr .store _ => -2
  | .cmp _ => -1
  | .jump .forIter _ => 1
  | .jump _ _ => 0

/-- The instructions of a block in `walk` (assembler.py:179-199): the size and the maximum after them, and whether the
loop was left with `break`.  `rec` is the call of `walk` with the blocks that are not being walked; `calls` counts the
calls. -/
def walkIns (seen : List Nat) (rec : Nat → Int → Int → Nat → Int × Nat) :
    List (Ins V) → Int → Int → Nat → Int × Int × Nat × Bool
  | [], size, max, calls => (size, max, calls, false)
  | i :: is, size, max, calls =>
    let size := size + i.effect
    let max := if size > max then size else max
    match i with
    | .jump o t =>
      if t ∈ seen then walkIns seen rec is size max calls
      else
        let (max, calls) := rec t size max calls
        if o = .jumpForward then (size, max, calls, true)
        else walkIns seen rec is size max calls
    | _ => walkIns seen rec is size max calls

/-- `walk` of `_compute_stack_size` (assembler.py:176-204); `seen` are the blocks that are being walked
(`block.seen`), the number `fuel` is at least the number of the others. The second part of the result counts the calls
of `walk`. -/
def walk (g : Graph V) : Nat → List Nat → Nat → Int → Int → Nat → Int × Nat
  | 0, _, _, _, max, calls => (max, calls)
  | fuel + 1, seen, b, size, max, calls =>
    match walkIns (b :: seen) (walk g fuel (b :: seen)) (g.block b).ins size max (calls + 1) with
    | (_, max, calls, true) => (max, calls)
    | (size, max, calls, false) =>
      match (g.block b).next with
      | none => (max, calls)
      | some n => if n ∈ b :: seen then (max, calls) else walk g fuel (b :: seen) n size max calls

/-- `_compute_stack_size` (assembler.py:71-206). -/
def Graph.stackSize (g : Graph V) : Int := (walk g g.blocks.length [] 0 0 0 0).1

/-- The targets of a block in `walk` of `_get_blocks_in_order` (assembler.py:215-218). -/
def orderIns (rec : Nat → List Nat × List Nat → List Nat × List Nat) :
    List (Ins V) → List Nat × List Nat → List Nat × List Nat
  | [], s => s
  | i :: is, s =>
    match i.target with
    | some t => if t ∈ s.1 then orderIns rec is s else orderIns rec is (rec t s)
    | none => orderIns rec is s

/-- `walk` of `_get_blocks_in_order` (assembler.py:208-221); `s` are the blocks that have been seen and the order. -/
def order (g : Graph V) : Nat → Nat → List Nat × List Nat → List Nat × List Nat
  | 0, _, s => s
  | fuel + 1, b, s =>
    let s := (b :: s.1, s.2)
    let s := match (g.block b).next with
      | some n => if n ∈ s.1 then s else order g fuel n s
      | none => s
    let s := orderIns (order g fuel) (g.block b).ins s
    (s.1, s.2 ++ [b])

/-- `_get_blocks_in_order` (assembler.py:208-221). -/
def Graph.order (g : Graph V) : List Nat := (Verif.Code.order g g.blocks.length 0 ([], [])).2.reverse

/-- The dictionaries of `_compute_lookups` (assembler.py:232-237) as lists of their keys in the order of their values;
of the constants the first with a key is kept. -/
structure Tables (V : Type) where
  consts : List V
  names : List Str
  locals : List Str
  deriving DecidableEq, Repr

/-- An instruction whose argument has been looked up: the number of the instruction, and the argument. -/
inductive Res where
  | plain (opcode : Nat)
  | arg (opcode : Nat) (oparg : Nat)
  | jump (opcode : Nat) (target : Nat)
  deriving DecidableEq, Repr

/-- `dis.opmap` of Python 2.6. -/
def Op.code : Op → Nat
  | .popTop => 1 | .rotTwo => 2 | .rotThree => 3 | .rotFour => 5 | .unaryNegative => 11
  | .binaryMultiply => 20 | .binaryDivide => 21 | .binaryModulo => 22 | .binaryAdd => 23 | .binarySubtract => 24
  | .binarySubscr => 25 | .getIter => 68 | .returnValue => 83
/-- See `Op.code`. -/
def NumOp.code : NumOp → Nat
  | .buildTuple => 102 | .callFunction => 131
/-- See `Op.code`. -/
def FastOp.code : FastOp → Nat
  | .load => 124 | .store => 125 | .delete => 126
/-- See `Op.code`. -/
def AttrOp.code : AttrOp → Nat
  | .store => 95 | .load => 105
/-- See `Op.code`. -/
def JumpOp.code : JumpOp → Nat
  | .forIter => 93 | .jumpForward => 110 | .jumpIfFalse => 111 | .jumpIfTrue => 112
/-- `dis.cmp_op` (assembler.py:341). -/
def Cmp.index : Cmp → Nat
  | .lt => 0 | .le => 1 | .eq => 2 | .ne => 3 | .gt => 4 | .ge => 5

/-- A key in a dictionary whose values count the keys: `try: d[key] except KeyError: d[key] = len(d)`. -/
def intern {A : Type} (same : A → A → Bool) (a : A) (l : List A) : Nat × List A :=
  match l.findIdx? (same a) with
  | some i => (i, l)
  | none => (l.length, l ++ [a])

/-- The lookup of the argument of an instruction (assembler.py:239-267).  `same`: the key (the constant and its type)
is equal to that of another constant. -/
def lookup (same : V → V → Bool) (i : Ins V) (t : Tables V) : Res × Tables V :=
  match i with
  | .op o => (.plain o.code, t)
  | .num o n => (.arg o.code n, t)
  | .const v => (.arg 100 (intern same v t.consts).1, { t with consts := (intern same v t.consts).2 })
  | .fast o s => (.arg o.code (intern (· == ·) s t.locals).1, { t with locals := (intern (· == ·) s t.locals).2 })
  | .attr o s => (.arg o.code (intern (· == ·) s t.names).1, { t with names := (intern (· == ·) s t.names).2 })
  | .cmp c => (.arg 106 c.index, t)
  | .jump o l => (.jump o.code l, t)

/-- The lookups of a block. -/
def lookups (same : V → V → Bool) : List (Ins V) → Tables V → List Res × Tables V
  | [], t => ([], t)
  | i :: is, t =>
    let (r, t) := lookup same i t
    let (rs, t) := lookups same is t
    (r :: rs, t)

/-- `_compute_lookups` (assembler.py:223-291): the blocks with their numbers. -/
def lookupBlocks (same : V → V → Bool) : List (Nat × List (Ins V)) → Tables V → List (Nat × List Res) × Tables V
  | [], t => ([], t)
  | (b, is) :: bs, t =>
    let (rs, t) := lookups same is t
    let (rest, t) := lookupBlocks same bs t
    ((b, rs) :: rest, t)

/-- `len(instr)` (assembler.py:351-356). -/
def Res.size : Res → Nat
  | .plain _ => 1
  | .arg _ n => if n > 65535 then 6 else 3
  | .jump _ _ => 3

/-- The offsets of the blocks (assembler.py:304-308). -/
def offsets : Nat → List (Nat × List Res) → List (Nat × Nat)
  | _, [] => []
  | k, (b, rs) :: bs => (b, k) :: offsets (k + (rs.map Res.size).sum) bs

/-- The offset of a block; 0 is what a block has that is not among those of the order (assembler.py:379). -/
def offset (offs : List (Nat × Nat)) (b : Nat) : Nat := ((offs.find? (·.1 = b)).map (·.2)).getD 0

/-- The exceptions of the assembler: NameError for an argument above 0xFFFF (`Instruction` is not defined,
assembler.py:328), OverflowError for a negative one (`array('B')`). -/
inductive AsmError where
  | nameError
  | overflow
  deriving DecidableEq, Repr

/-- An argument in two bytes (assembler.py:324-334). -/
def encodeArg (opcode : Nat) (oparg : Int) : Except AsmError (List Nat) :=
  if oparg > 65535 then .error .nameError
  else if oparg < 0 then .error .overflow
  else .ok [opcode, oparg.toNat % 256, oparg.toNat / 256]

/-- The bytes of one instruction at a position (assembler.py:311-336). -/
def encode (offs : List (Nat × Nat)) (pos : Nat) : Res → Except AsmError (List Nat)
  | .plain c => .ok [c]
  | .arg c n => encodeArg c n
  | .jump c t => encodeArg c ((offset offs t : Int) - (pos + 3 : Nat))

/-- The bytes of instructions. -/
def encodes (offs : List (Nat × Nat)) : Nat → List Res → Except AsmError (List Nat)
  | _, [] => .ok []
  | pos, r :: rs =>
    match encode offs pos r with
    | .error e => .error e
    | .ok bs =>
      match encodes offs (pos + bs.length) rs with
      | .error e => .error e
      | .ok cs => .ok (bs ++ cs)

/-- `_compute_jump_offsets` (assembler.py:293-343): since an argument above 0xFFFF is an exception, the loop is run once. -/
def jumpOffsets (bs : List (Nat × List Res)) : Except AsmError (List Nat) :=
  encodes (offsets 0 bs) 0 (bs.flatMap (·.2))

/-- A code object (assembler.py:66-69). -/
structure Code (V : Type) where
  stackSize : Int
  bytes : List Nat
  consts : List V
  names : List Str
  locals : List Str
  deriving DecidableEq, Repr

/-- `assemble` (assembler.py:55-69). -/
def Graph.assemble (same : V → V → Bool) (args : List Str) (doc : V) (g : Graph V) : Except AsmError (Code V) :=
  let g := g.nextNew.emit [.op .returnValue]
  let (bs, t) := lookupBlocks same (g.order.map fun b => (b, (g.block b).ins))
    { consts := [doc], names := [], locals := args }
  match jumpOffsets bs with
  | .error e => .error e
  | .ok bytes => .ok { stackSize := g.stackSize, bytes, consts := t.consts, names := t.names, locals := t.locals }

end Verif.Code
