import Verif.Base.Path
/-
Model of the database of /repo/file_systems/common/init.sql: its three tables, its constraints, its two
triggers, and the statements that can be run on it.  No Go code in /repo runs the script; the model is of
what SQLite does with it.  What is trusted here is that SQLite behaves as follows (its documentation):
* foreign keys are enforced at the end of each statement (the script switches that on, line 1);
* ON DELETE CASCADE deletes the referring rows after the row itself and before its AFTER DELETE triggers run;
  a row that is gone already is passed over;
* a UNIQUE constraint of several columns does not apply to rows in which one of them is NULL;
* cascades and triggers nest to a limited depth (1000 as SQLite is distributed), beyond which the statement fails;
* a trigger is compiled together with every statement that could fire it, and the statement fails
  if one of its columns does not exist, whatever rows there are.
Simplifications: a statement that fails leaves the database as it was (that is, the transaction it is in is rolled
back); columns have the types they are declared with; `nlinks` is not NULL; the columns of `inodes` no
constraint and no trigger mentions are one number, `rest`; changes of the primary key `id` of a row and INSERT OR REPLACE
are not modelled; `limit` counts the levels of the cascade only.
-/
namespace Disko.Sql
open Disko

/-- init.sql:3-20, a row of the table `inodes`. `rest` stands for the columns nothing below depends on. -/
structure Inode where
  id : Int
  nlinks : Int
  deleted : Option Nat
  rest : Nat
deriving DecidableEq, Repr

/-- init.sql:23-40, a row of the table `dirents`. -/
structure Dirent where
  id : Int
  name : Str
  inode : Int
  parent : Option Int
deriving DecidableEq, Repr

/-- init.sql:43-53, a row of the table `allocated_blocks`. -/
structure Block where
  id : Int
  inode : Option Int
  block : Int
  seq : Int
  level : Int
deriving DecidableEq, Repr

/-- init.sql:1-53, the database. -/
structure DB where
  inodes : List Inode
  dirents : List Dirent
  blocks : List Block
deriving DecidableEq, Repr

/-- Why a statement fails. -/
inductive Err
  /-- "no such column: nlinks" -/
  | noSuchColumn
  /-- a UNIQUE, PRIMARY KEY or FOREIGN KEY constraint -/
  | constraint
  /-- "too many levels of trigger recursion" -/
  | tooDeep
deriving DecidableEq, Repr

/-- init.sql:1-80 when the script has just been run. -/
def DB.empty : DB := ⟨[], [], []⟩

/-- UPDATE inodes SET nlinks = … WHERE p, with the trigger `trg_deallocate_blocks` (init.sql:75-80) as it is meant, that is with
NEW.nlinks in its condition: the blocks of every changed row whose new count is 0 or less are deleted. -/
def updateNlinks (p : Inode → Bool) (f : Inode → Inode) (d : DB) : DB :=
  { d with
    inodes := d.inodes.map fun r => if p r then f r else r
    blocks := d.blocks.filter fun b => !(d.inodes.any fun r => p r && decide ((f r).nlinks ≤ 0) && b.inode == some r.id) }

/-- The trigger `trg_decrement_nlinks` (init.sql:56-71) for a deleted entry that led to the inode `i`. -/
def decrement (now : Nat) (i : Int) (d : DB) : DB :=
  updateNlinks (fun r => r.id == i)
    (fun r => { r with nlinks := r.nlinks - 1, deleted := if r.nlinks ≤ 1 then some now else r.deleted }) d

/-- DELETE of the row `x` of `dirents` (init.sql:23-40 and 56-71): the row, what refers to it as its parent (line 38), the trigger. -/
def deleteDirent (now : Nat) : (limit : Nat) → Int → DB → Option DB
  | limit, x, d =>
    match d.dirents.find? (fun r => r.id == x) with
    | none => some d
    | some row =>
      match limit with
      | 0 => none
      | limit + 1 =>
        let d1 := { d with dirents := d.dirents.filter fun r => r.id != x }
        let children := (d1.dirents.filter fun r => r.parent == some x).map (·.id)
        (children.foldlM (fun d k => deleteDirent now limit k d) d1).map (decrement now row.inode)

/-- DELETE FROM dirents WHERE p: the rows are found first and then deleted one by one. -/
def deleteDirents (now limit : Nat) (p : Dirent → Bool) (d : DB) : Option DB :=
  ((d.dirents.filter p).map (·.id)).foldlM (fun d k => deleteDirent now limit k d) d

/-- DELETE of the row `i` of `inodes` (init.sql:3-20): the row, the entries that lead to it (line 34), its blocks (line 45). -/
def deleteInode (now limit : Nat) (i : Int) (d : DB) : Option DB :=
  (deleteDirents now limit (fun r => r.inode == i) { d with inodes := d.inodes.filter fun r => r.id != i }).map
    fun d => { d with blocks := d.blocks.filter fun b => b.inode != some i }

/-- DELETE FROM inodes WHERE p. -/
def deleteInodes (now limit : Nat) (p : Inode → Bool) (d : DB) : Option DB :=
  ((d.inodes.filter p).map (·.id)).foldlM (fun d i => deleteInode now limit i d) d

/-- init.sql:34 and 38-39: the row may be in `dirents` beside the other rows there. -/
def direntFits (r : Dirent) (others : List Dirent) (inodes : List Inode) : Bool :=
  !(others.any fun o => o.id == r.id) && inodes.any (fun i => i.id == r.inode) &&
    (match r.parent with
      | none => true
      | some x => (x == r.id || others.any fun o => o.id == x) && !(others.any fun o => o.parent == some x && o.name == r.name))

/-- init.sql:45 and 52: the row may be in `allocated_blocks` beside the other rows there. -/
def blockFits (r : Block) (others : List Block) (inodes : List Inode) : Bool :=
  !(others.any fun o => o.id == r.id) &&
    (match r.inode with
      | none => true
      | some i => inodes.any (fun n => n.id == i) && !(others.any fun o => o.inode == some i && o.seq == r.seq))

/-- The statements a driver can run. -/
inductive Stmt
  | insertInode (r : Inode)
  | insertDirent (r : Dirent)
  | insertBlock (r : Block)
  /-- UPDATE inodes SET … WHERE p, for columns other than `id` and `nlinks` -/
  | updateInodes (p : Inode → Bool) (deleted : Inode → Option Nat) (rest : Inode → Nat)
  /-- UPDATE inodes SET nlinks = … WHERE p -/
  | updateLinks (p : Inode → Bool) (links : Inode → Int)
  /-- UPDATE dirents SET name = …, inode_id = …, parent_dirent_id = … WHERE id = x -/
  | updateDirent (x : Int) (name : Str) (inode : Int) (parent : Option Int)
  /-- UPDATE allocated_blocks SET … WHERE id = x -/
  | updateBlock (x : Int) (inode : Option Int) (block seq level : Int)
  | deleteInodes (p : Inode → Bool)
  | deleteDirents (p : Dirent → Bool)
  | deleteBlocks (p : Block → Bool)

/-- Running a statement at the time `now`. `qualified = false` is the script as it is, where the condition of
`trg_deallocate_blocks` (init.sql:76) names a column `nlinks` without saying which row's; `true` is the script with NEW.nlinks. -/
def run (qualified : Bool) (limit now : Nat) (s : Stmt) (d : DB) : Except Err DB :=
  match s with
  | .insertInode r => if d.inodes.any (fun o => o.id == r.id) then .error .constraint else .ok { d with inodes := d.inodes ++ [r] }
  | .insertDirent r => if direntFits r d.dirents d.inodes then .ok { d with dirents := d.dirents ++ [r] } else .error .constraint
  | .insertBlock r => if blockFits r d.blocks d.inodes then .ok { d with blocks := d.blocks ++ [r] } else .error .constraint
  | .updateInodes p deleted rest =>
    .ok { d with inodes := d.inodes.map fun r => if p r then { r with deleted := deleted r, rest := rest r } else r }
  | .updateLinks p links =>
    if qualified then .ok (updateNlinks p (fun r => { r with nlinks := links r }) d) else .error .noSuchColumn
  | .updateDirent x name inode parent =>
    let others := d.dirents.filter fun r => r.id != x
    if d.dirents.any (fun r => r.id == x) then
      if direntFits ⟨x, name, inode, parent⟩ others d.inodes then .ok { d with dirents := others ++ [⟨x, name, inode, parent⟩] }
      else .error .constraint
    else .ok d
  | .updateBlock x inode block seq level =>
    let others := d.blocks.filter fun r => r.id != x
    if d.blocks.any (fun r => r.id == x) then
      if blockFits ⟨x, inode, block, seq, level⟩ others d.inodes then .ok { d with blocks := others ++ [⟨x, inode, block, seq, level⟩] }
      else .error .constraint
    else .ok d
  | .deleteInodes p =>
    if qualified then (match Sql.deleteInodes now limit p d with | some d => .ok d | none => .error .tooDeep) else .error .noSuchColumn
  | .deleteDirents p =>
    if qualified then (match Sql.deleteDirents now limit p d with | some d => .ok d | none => .error .tooDeep) else .error .noSuchColumn
  | .deleteBlocks p => .ok { d with blocks := d.blocks.filter fun b => !p b }

/-- Running statements one after the other; one that fails changes nothing. Each comes with the time it is run at. -/
def runAll (qualified : Bool) (limit : Nat) : List (Nat × Stmt) → DB → DB
  | [], d => d
  | (now, s) :: rest, d =>
    match run qualified limit now s d with
    | .ok d => runAll qualified limit rest d
    | .error _ => runAll qualified limit rest d

end Disko.Sql
