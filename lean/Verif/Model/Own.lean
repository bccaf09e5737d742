/-!
# Model of the ownership of line buffers and files (include/ss/parser.hpp:764-838)

Only the members of a `reader` that hold a resource are kept; a `parser` owns nothing but its `reader_` (its other members
are strings, vectors and flags, parser.hpp:1056-1061), and its move constructor, move assignment and destructor are
defaulted (parser.hpp:70-72).  Contents of buffers are in `Verif.Model.Reader`.
-/
namespace Ssp.Own

/-- a block from `realloc` / `getline`, or an open file from `fopen` -/
inductive Resource where
  | block (n : Nat)
  | file (n : Nat)
  deriving DecidableEq, Repr

def Resource.id : Resource → Nat
  | .block n => n
  | .file n => n

/-- The owning members of a `reader`: parser.hpp:1027-1029, 1039; `none` is `nullptr`. -/
structure Handles where
  /-- `buffer_` -/
  buffer : Option Nat := none
  /-- `next_line_buffer_` -/
  next : Option Nat := none
  /-- `helper_buffer_` -/
  helper : Option Nat := none
  /-- `file_` -/
  file : Option Nat := none
  deriving DecidableEq, Repr

/-- what the destructor of the reader releases, in its order: parser.hpp:827-835 (`free(nullptr)` does nothing) -/
def Handles.owned (h : Handles) : List Resource :=
  (h.buffer.map .block).toList ++ (h.next.map .block).toList ++ (h.helper.map .block).toList ++ (h.file.map .file).toList

/-- The parsers of a program in the order of their construction (`none`: destroyed), all resources acquired so far and
all releases so far. -/
structure World where
  objs : List (Option Handles) := []
  made : List Resource := []
  released : List Resource := []
  deriving DecidableEq, Repr

/-- the resources held by the parsers that exist -/
def World.owned (w : World) : List Resource := w.objs.flatMap fun o => match o with
  | none => []
  | some h => h.owned

/-- which of the three buffers -/
inductive Which where
  | buffer
  | next
  | helper
  deriving DecidableEq, Repr

def Handles.get (h : Handles) : Which → Option Nat
  | .buffer => h.buffer
  | .next => h.next
  | .helper => h.helper

def Handles.set (h : Handles) (v : Option Nat) : Which → Handles
  | .buffer => { h with buffer := v }
  | .next => { h with next := v }
  | .helper => { h with helper := v }

/-- What a program does with parsers. -/
inductive Act where
  /-- construct from a file name; could it be opened? -/
  | openFile (ok : Bool)
  /-- construct from a buffer -/
  | ofBuffer
  /-- during a call on parser `i`, `realloc` (or `getline`) gives one of its buffers a new block -/
  | realloc (i : Nat) (w : Which)
  /-- during a call on parser `i`, `update` exchanges two buffers -/
  | update (i : Nat)
  /-- a new parser, move constructed from parser `i` -/
  | moveConstruct (i : Nat)
  /-- `p_i = std::move(p_j)` -/
  | moveAssign (i j : Nat)
  /-- the life of parser `i` ends -/
  | destroy (i : Nat)
  deriving DecidableEq, Repr

/-- The effect of an action; `none`: the program names a parser that does not exist. -/
def World.step (w : World) : Act → Option World
  -- `reader(file_name, delim)`: parser.hpp:765-768
  | .openFile ok =>
    if ok then some { w with objs := w.objs ++ [some { file := some w.made.length }], made := w.made ++ [.file w.made.length] }
    else some { w with objs := w.objs ++ [some {}] }
  -- `reader(buffer, size, delim)`: parser.hpp:770-774
  | .ofBuffer => some { w with objs := w.objs ++ [some {}] }
  -- common.hpp:35-42, 47, 59, 72, 98-114; parser.hpp:987-997: the old block, if there is one, is released by `realloc`.
  -- (A `realloc` that stays in place or fails changes nothing.)
  | .realloc i b =>
    match w.objs[i]? with
    | some (some h) => some
      { objs := w.objs.set i (some (h.set (some w.made.length) b))
        made := w.made ++ [.block w.made.length]
        released := w.released ++ ((h.get b).map .block).toList }
    | _ => none
  -- parser.hpp:928-932
  | .update i =>
    match w.objs[i]? with
    | some (some h) => some { w with objs := w.objs.set i (some { h with buffer := h.next, next := h.buffer }) }
    | _ => none
  -- `reader(reader&&)`: parser.hpp:776-795
  | .moveConstruct i =>
    match w.objs[i]? with
    | some (some h) => some { w with objs := w.objs.set i (some {}) ++ [some h] }
    | _ => none
  -- `reader& operator=(reader&&)`: parser.hpp:797-825: the members are overwritten, nothing is released
  | .moveAssign i j =>
    match w.objs[i]?, w.objs[j]? with
    | some (some _), some (some h) =>
      if i = j then some w else some { w with objs := (w.objs.set i (some h)).set j (some {}) }
    | _, _ => none
  -- `~reader()`: parser.hpp:827-835
  | .destroy i =>
    match w.objs[i]? with
    | some (some h) => some { w with objs := w.objs.set i none, released := w.released ++ h.owned }
    | _ => none

/-- Actions one after the other. -/
def World.run (w : World) : List Act → Option World
  | [] => some w
  | a :: as =>
    match w.step a with
    | none => none
    | some w' => w'.run as

end Ssp.Own
