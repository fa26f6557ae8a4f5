import Verif.Styles.Model
/-
Which objects a workbook makes, what points at what, and when each is deleted.  Following a pointer to an object that is gone, or
deleting it again, is `none`.

Simplifications: an address is never used again (each object has a number of its own).  Contents are left out, and with them the use
counts and the comparisons of formats: wherever the library decides by them, a call carries the decision, so that the theorems are
about every way to decide.  Reading a set or a list of pointers (`std::set::find`, `insert`, `erase`) follows all of them.
Expression objects are the subject of `Verif/Tree`, the records of a file that is being written that of `Verif/Store`.
-/
namespace Xls.Mem

/-- Objects of one class by address; `none`: deleted.  `log`: the deletions, in order. -/
structure Pool (α : Type) where
  objs : List (Option α) := []
  log : List Nat := []
deriving DecidableEq, Repr

/-- Following a pointer. -/
def Pool.live {α : Type} (P : Pool α) (n : Nat) : Option α := P.objs[n]?.join

/-- `new`: the address is the number of objects made so far. -/
def Pool.add {α : Type} (P : Pool α) (a : α) : Pool α := { P with objs := P.objs ++ [some a] }

/-- Writing to an object. -/
def Pool.put {α : Type} (P : Pool α) (n : Nat) (a : α) : Option (Pool α) := (P.live n).map fun _ => { P with objs := P.objs.set n (some a) }

/-- `delete`. -/
def Pool.del {α : Type} (P : Pool α) (n : Nat) : Option (Pool α) := (P.live n).map fun _ => ⟨P.objs.set n none, P.log ++ [n]⟩

/-- Objects and the list of pointers to them that the workbook keeps. -/
structure Own (α : Type) where
  pool : Pool α := {}
  list : List Nat := []
deriving DecidableEq, Repr

/-- `push_back(new …)`. -/
def Own.add {α : Type} (o : Own α) (a : α) : Own α := ⟨o.pool.add a, o.list ++ [o.pool.objs.length]⟩

/-- `delete *--end(); pop_back()`, globalrec.cpp 935-939. -/
def Own.pop {α : Type} (o : Own α) : Option (Own α) :=
  o.list.getLast?.bind fun n => (o.pool.del n).map fun P => ⟨P, o.list.dropLast⟩

/-- The loops of `~CGlobalRecords`, globalrec.cpp 247-295. -/
def Own.clear {α : Type} (o : Own α) : Option (Own α) := (o.list.foldlM Pool.del o.pool).map fun P => ⟨P, []⟩

/-- Every object of the list is there. -/
def Own.read {α : Type} (o : Own α) : Option Unit := o.list.forM fun n => (o.pool.live n).map fun _ => ()

/-- The pointers of an `xf_t`, extformat.h 548-549. -/
structure Xf where
  font : Option Nat
  format : Option Nat
deriving DecidableEq, Repr

/-- What a worksheet deletes, sheetrec.cpp 126-221. -/
inductive Kind where
  | cell | note | merged | col | row | range | stack | dval | link
deriving DecidableEq, Repr

/-- An object that belongs to a sheet.  `sheet`: the sheet it belongs to (`cell_t::ws`, `range::m_pWorkSheet`, the `worksheet` of a
    `formula_t`; for the others not stored).  `key`: row and column of a cell or comment, the number of a column or row.  `xf`: its format
    (cell.h 117, colinfo.h 45, row.h 55).  `stacks`: the formula of a `formula_cell_t` (formula_cell.h 66), the conditions of a validation
    (sheetrec.h 177-178).  `long`: `label_t::inSST`. -/
structure Thing where
  kind : Kind
  sheet : Nat
  key : Nat × Nat := (0, 0)
  xf : Option Nat := none
  stacks : List Nat := []
  long : Bool := false
deriving DecidableEq, Repr

/-- A `worksheet`: its lists of pointers, and `cellHint` and `noteHint` (sheetrec.h 246-275). -/
structure Sheet where
  list : Kind → List Nat := fun _ => []
  hint : Option Nat := none
  noteHint : Option Nat := none

/-- What a call returned. -/
inductive Val where
  | nothing
  | sheet (n : Nat)
  | thing (n : Nat)
  | font (n : Nat)
  | format (n : Nat)
  | xf (n : Nat)
deriving DecidableEq, Repr

/-- The workbook (workbook.h 103-112, globalrec.h 180-215).  Fonts and formats are those of m_DefaultFonts followed by those of m_Fonts, and
    of m_DefaultXFs followed by m_XFs: they are deleted in this order.  `items`: the properties of both property sets.
    `res`: what the calls so far returned. -/
structure St where
  sheets : Own Sheet := {}
  things : Pool Thing := {}
  fonts : Own Unit := {}
  formats : Own Unit := {}
  xfs : Own Xf := {}
  styles : Own Unit := {}
  bounds : Own Unit := {}
  items : Own Nat := {}
  labels : List Nat := []
  res : List Val := []

/-- Objects from the start. -/
def Own.of {α : Type} (l : List α) : Own α := ⟨⟨l.map some, []⟩, List.range l.length⟩

/-- `CGlobalRecords::CGlobalRecords`, globalrec.cpp 84-245: five fonts, 21 formats (`Styles.defaultFontOf`: the font of each, by
    position), six styles; `CSummaryInfo` and `CDocSummaryInfo`, summinfo.cpp 62-79, docsumminfo.cpp 60-68: five properties and one
    (code page 1, times 12 and 13, security 19, application 18; those of the second set from 100 on). -/
def start : St :=
  { fonts := .of (List.replicate 5 ())
    xfs := .of ((List.range 21).map fun i => ⟨Styles.defaultFontOf i, none⟩)
    styles := .of (List.replicate 6 ())
    items := .of [1, 12, 13, 19, 18, 101] }

/-- `MarkUsed`, `UnMarkUsed` or an access to a format: the format, and its font and number format (extformat.cpp 584-603). -/
def St.touchXf (s : St) (x : Nat) : Option Xf :=
  (s.xfs.pool.live x).bind fun X =>
    (X.font.elim (some ()) fun f => s.fonts.pool.live f).bind fun _ =>
      (X.format.elim (some ()) fun f => s.formats.pool.live f).map fun _ => X

/-- The destructors: `~label_t` takes the label off the list (label.cpp 87-94, globalrec.cpp 691-700), `~cell_t` gives up the format
    (cell.cpp 48-51), and so does `~rowheight_t` (row.cpp 54-59); the others follow no pointers. -/
def St.destroy (s : St) (n : Nat) : Option St :=
  (s.things.live n).bind fun t =>
    (if t.kind = .cell ∨ t.kind = .note ∨ t.kind = .row then t.xf.elim (some ()) fun x => (s.touchXf x).map fun _ => () else some ()).bind
      fun _ => (s.things.del n).map fun P => { s with things := P, labels := if t.long then s.labels.erase n else s.labels }

/-- Following all pointers of a list. -/
def St.readList (s : St) (l : List Nat) : Option Unit := l.forM fun n => (s.things.live n).map fun _ => ()

/-- The list of one kind exchanged. -/
def Sheet.setList (sh : Sheet) (k : Kind) (l : List Nat) : Sheet := { sh with list := fun j => if j = k then l else sh.list j }

/-- `push_back(new …)` on a list of a sheet: `merge` (sheetrec.cpp 1291-1302), `rangegroup` (1363-1370), `formula_data` (789-795),
    `validate` (1372-1408), `hyperLink` (1411-1433). -/
def St.append (s : St) (t : Thing) : Option St :=
  (s.sheets.pool.live t.sheet).bind fun sh =>
    (s.sheets.pool.put t.sheet (sh.setList t.kind (sh.list t.kind ++ [s.things.objs.length]))).map fun P =>
      { s with things := s.things.add t, sheets := { s.sheets with pool := P } }

/-- The object of this kind and key in a set. -/
def St.existing (s : St) (sh : Sheet) (t : Thing) : Option Nat :=
  (sh.list t.kind).find? fun n => ((s.things.live n).map (·.key)) = some t.key

/-- `worksheet::AddCell` and `AddNote`, sheetrec.cpp 937-985, 987-1034, on a new cell or comment: the constructor marks the format
    (cell.cpp 36-46) and puts a long text on the list of labels (label.cpp 75-85); the cell remembered from the last call is looked
    at; a cell found at the place is taken out, deleted and forgotten; the new one is put in and remembered. -/
def St.addCell (s : St) (t : Thing) (x : Nat) : Option St :=
  (s.touchXf x).bind fun _ =>
  (s.sheets.pool.live t.sheet).bind fun sh =>
  ((if t.kind = .cell then sh.hint else sh.noteHint).elim (some ()) fun h => (s.things.live h).map fun _ => ()).bind fun _ =>
  (s.readList (sh.list t.kind)).bind fun _ =>
  let n := s.things.objs.length
  let s1 := { s with things := s.things.add { t with xf := some x }, labels := if t.long then s.labels ++ [n] else s.labels }
  match s.existing sh t with
  | none => (s1.sheets.pool.put t.sheet (if t.kind = .cell then { sh.setList .cell (sh.list .cell ++ [n]) with hint := some n }
      else { sh.setList t.kind (sh.list t.kind ++ [n]) with noteHint := some n })).map
        fun P => { s1 with sheets := { s1.sheets with pool := P } }
  | some e => (s1.destroy e).bind fun s2 =>
    (s2.sheets.pool.put t.sheet (if t.kind = .cell then { sh.setList .cell ((sh.list .cell).erase e ++ [n]) with hint := some n }
      else { sh.setList t.kind ((sh.list t.kind).erase e ++ [n]) with noteHint := some n })).map
        fun P => { s2 with sheets := { s2.sheets with pool := P } }

/-- `worksheet::colwidth` and `worksheet::rowheight`, sheetrec.cpp 1304-1335, 1337-1361: the format is marked; the setting there is
    gives up its format and is deleted (a row's destructor gives it up again). -/
def St.addSize (s : St) (t : Thing) : Option St :=
  (t.xf.elim (some ()) fun x => (s.touchXf x).map fun _ => ()).bind fun _ =>
  (s.sheets.pool.live t.sheet).bind fun sh =>
  (s.readList (sh.list t.kind)).bind fun _ =>
  let n := s.things.objs.length
  let s1 := { s with things := s.things.add t }
  match s.existing sh t with
  | none => (s1.sheets.pool.put t.sheet (sh.setList t.kind (sh.list t.kind ++ [n]))).map fun P => { s1 with sheets := { s1.sheets with pool := P } }
  | some e => (s1.things.live e).bind fun o =>
    (o.xf.elim (some ()) fun x => (s1.touchXf x).map fun _ => ()).bind fun _ =>
    (s1.destroy e).bind fun s2 =>
    (s2.sheets.pool.put t.sheet (sh.setList t.kind ((sh.list t.kind).erase e ++ [n]))).map fun P => { s2 with sheets := { s2.sheets with pool := P } }

/-- `CGlobalRecords::findXF` on the format made last, globalrec.cpp 920-946: formats with the same font and number format may be equal
    (extformat.cpp 859-866).  `found`: the position of the one that is; otherwise the new one is found itself. -/
def St.findXf (s : St) (n : Nat) (found : Nat) : Option (St × Nat) :=
  s.xfs.read.bind fun _ =>
  (s.xfs.pool.live n).bind fun X =>
    match (s.xfs.list.drop 21)[found]? with
    | none => some (s, n)
    | some y => (s.xfs.pool.live y).bind fun Y =>
      if Y = X ∧ y ≠ n then s.xfs.pop.map fun o => ({ s with xfs := o }, y) else some (s, n)

/-- What is done to the format of a cell.  The arguments are positions of calls, `found` see `findXf`.
    `change`: the format calls, cell.cpp 76-272 (`font`, `format`: a font or number format given; `some none`: a number format by number).
    `own`: the font calls, cell.cpp 277-371 (`fresh`: whether the font is in use elsewhere).
    `take`: `SetXF`, cell.cpp 373-381.  `same`: `SetXF` with a format of m_XFs, as in range.cpp 66-100, 120-176.  `look`: getters. -/
inductive Act where
  | change (font : Option Nat) (format : Option (Option Nat)) (found : Nat)
  | own (fresh : Bool) (found : Nat)
  | take (xf : Nat)
  | same (pos : Nat)
  | look
deriving DecidableEq, Repr

def St.font? (s : St) (i : Nat) : Option Nat := s.res[i]?.bind fun | .font f => some f | _ => none
def St.format? (s : St) (i : Nat) : Option Nat := s.res[i]?.bind fun | .format f => some f | _ => none
def St.xf? (s : St) (i : Nat) : Option Nat := s.res[i]?.bind fun | .xf x => some x | _ => none
def St.sheet? (s : St) (i : Nat) : Option Nat := s.res[i]?.bind fun | .sheet n => some n | _ => none
def St.thing? (s : St) (i : Nat) : Option Nat := s.res[i]?.bind fun | .thing n => some n | _ => none

/-- An argument that may be left out. -/
def opt {α β : Type} (f : α → Option β) : Option α → Option (Option β)
  | none => some none
  | some a => (f a).map some

/-- `xf_t::xfDup`, `SetFont`, `SetFormat` on the copy, `UnMarkUsed`, `findXF`, `MarkUsed`: cell.cpp 76-272, extformat.cpp 384-424, 630-645, 672-710.
    The new address is `xfs.pool.objs.length`. -/
def St.renew (s : St) (n : Nat) (t : Thing) (x : Nat) (X' : Xf) (found : Nat) : Option St :=
  let m := s.xfs.pool.objs.length
  let s1 := { s with xfs := s.xfs.add X' }
  (s1.touchXf m).bind fun _ => (s1.touchXf x).bind fun _ => (s1.findXf m found).bind fun r =>
    (r.1.touchXf r.2).bind fun _ => (r.1.things.put n { t with xf := some r.2 }).map fun P => { r.1 with things := P }

def St.act (s : St) (n : Nat) (a : Act) : Option St :=
  (s.things.live n).bind fun t => t.xf.bind fun x => (s.touchXf x).bind fun X =>
  match a with
  | .change f g found =>
    (opt s.font? f).bind fun f => (opt (opt s.format?) g).bind fun g =>
      s.renew n t x ⟨f.elim X.font some, g.getD X.format⟩ found
  | .own fresh found =>
    if fresh ∨ X.font = none then
      (s.fonts.pool.live (X.font.getD 0)).bind fun _ =>
        { s with fonts := s.fonts.add () }.renew n t x ⟨some s.fonts.pool.objs.length, X.format⟩ found
    else s.renew n t x X found
  | .take i => (s.xf? i).bind fun y => (s.touchXf y).bind fun _ => (s.things.put n { t with xf := some y }).map fun P => { s with things := P }
  | .same p => match (s.xfs.list.drop 21)[p]? with
    | none => some s
    | some y => (s.touchXf y).bind fun _ => (s.things.put n { t with xf := some y }).map fun P => { s with things := P }
  | .look => some s

/-- `worksheet::FindCellOrMakeBlank`, sheetrec.cpp 1036-1061: a cell is looked for with a temporary one (which marks and gives up the
    default format, number 15); if there is none, a blank cell is made. -/
def St.find (s : St) (sh : Nat) (key : Nat × Nat) : Option (St × Nat) :=
  (s.touchXf 15).bind fun _ => (s.sheets.pool.live sh).bind fun S => (s.readList (S.list .cell)).bind fun _ =>
    match s.existing S { kind := .cell, sheet := sh, key := key } with
    | some n => some (s, n)
    | none => (s.addCell { kind := .cell, sheet := sh, key := key } 15).map fun s' => (s', s.things.objs.length)

/-- The loops of range.cpp over the cells of a rectangle, any list of places here. -/
def St.over (sh : Nat) : List ((Nat × Nat) × Act) → St → Option St
  | [], s => some s
  | (k, a) :: r, s => (s.find sh k).bind fun q => (q.1.act q.2 a).bind (St.over sh r)

/-- The calls; pointers are given as positions of the calls that returned them. -/
inductive Call where
  /-- `workbook::sheet`, workbook.cpp 115-148 -/
  | sheet
  /-- `workbook::font(name)`, workbook.cpp 163-171 -/
  | font
  /-- `workbook::font(number)`, workbook.cpp 173-176 -/
  | fontNo (n : Nat)
  /-- `workbook::format`, workbook.cpp 178-202 -/
  | format
  /-- `workbook::xformat`, workbook.cpp 204-235 -/
  | xformat (font format : Option Nat)
  /-- `xf_t::SetFont`, extformat.cpp 630-645 -/
  | setFont (x : Nat) (f : Option Nat)
  /-- `xf_t::SetFormat`, extformat.cpp 672-710; `none`: by number -/
  | setFormat (x : Nat) (f : Option Nat)
  /-- any other call on a format -/
  | onXf (x : Nat)
  /-- any call on a font -/
  | onFont (f : Nat)
  /-- `label`, `number`, `boolean`, `error`, `blank`, `formula`: sheetrec.cpp 797-934 (`number` with a number format is this and `change`) -/
  | cell (sh : Nat) (key : Nat × Nat) (xf : Option Nat) (long : Bool) (stack : Option Nat)
  /-- `FindCellOrMakeBlank` -/
  | find (sh : Nat) (key : Nat × Nat)
  /-- `note`, sheetrec.cpp 881-897 -/
  | note (sh : Nat) (key : Nat × Nat) (xf : Option Nat)
  /-- `colwidth` -/
  | colwidth (sh col : Nat) (xf : Option Nat)
  /-- `rowheight` -/
  | rowheight (sh row : Nat) (xf : Option Nat)
  /-- `merge` -/
  | merge (sh : Nat)
  /-- `rangegroup` -/
  | range (sh : Nat)
  /-- `formula_data` -/
  | stack (sh : Nat)
  /-- any `Push…` on a formula -/
  | push (st : Nat)
  /-- `validate` -/
  | validate (sh : Nat) (c1 c2 : Option Nat)
  /-- `hyperLink` -/
  | link (sh : Nat) (cell : Nat)
  /-- a call on a cell or comment -/
  | act (c : Nat) (a : Act)
  /-- a call on a range -/
  | over (r : Nat) (l : List ((Nat × Nat) × Act))
  /-- `workbook::property` for the property with this key, workbook.cpp 240-253, HPSF.cpp 160-174 -/
  | property (key : Nat)
  /-- `workbook::Dump` -/
  | save
deriving DecidableEq, Repr

/-- `hpsf_doc_t::insert`, HPSF.cpp 160-174. -/
def St.setItem (s : St) (key : Nat) : Option St :=
  s.items.read.bind fun _ =>
  match s.items.list.find? fun n => s.items.pool.live n = some key with
  | none => some { s with items := s.items.add key }
  | some e => ((s.items.pool.add key).del e).map fun P => { s with items := ⟨P, s.items.list.erase e ++ [s.items.pool.objs.length]⟩ }

/-- What a save reads of one object of a sheet: sheetrec.cpp 223-765, row.cpp 66-103, colinfo.cpp 38-57, formula_cell.cpp 133-145,
    sheetrec.cpp 1449-1490. -/
def St.readThing (s : St) (n : Nat) : Option Unit :=
  (s.things.live n).bind fun t => (t.xf.elim (some ()) fun x => (s.touchXf x).map fun _ => ()).bind fun _ => s.readList t.stacks

/-- The order of the kinds in `~worksheet`, sheetrec.cpp 126-221. -/
def Kind.all : List Kind := [.cell, .note, .merged, .col, .row, .range, .stack, .dval, .link]

/-- What a save reads: everything that the lists lead to (globalrec.cpp 318-594, sheetrec.cpp 223-765, summinfo.cpp 98-109). -/
def St.readAll (s : St) : Option Unit :=
  s.fonts.read.bind fun _ => s.formats.read.bind fun _ => (s.xfs.list.forM fun x => (s.touchXf x).map fun _ => ()).bind fun _ =>
  s.styles.read.bind fun _ => s.bounds.read.bind fun _ => s.items.read.bind fun _ => (s.readList s.labels).bind fun _ =>
  s.sheets.list.forM fun n => (s.sheets.pool.live n).bind fun sh => Kind.all.forM fun k => (sh.list k).forM s.readThing

def St.ret (s : St) (v : Val) : St := { s with res := s.res ++ [v] }

def step (s : St) : Call → Option St
  | .sheet => some { s with sheets := s.sheets.add {}, bounds := s.bounds.add () } |>.map (·.ret (.sheet s.sheets.pool.objs.length))
  | .font => some ({ s with fonts := s.fonts.add () }.ret (.font s.fonts.pool.objs.length))
  | .fontNo n => if n < 5 then (s.fonts.list[n]?.bind fun f => s.fonts.pool.live f).map fun _ =>
      { s with fonts := s.fonts.add () }.ret (.font s.fonts.pool.objs.length) else none
  | .format => some ({ s with formats := s.formats.add () }.ret (.format s.formats.pool.objs.length))
  | .xformat f g => (opt s.font? f).bind fun f => (opt s.format? g).bind fun g =>
      let s' := { s with xfs := s.xfs.add ⟨f, g⟩ }
      (s'.touchXf s.xfs.pool.objs.length).map fun _ => s'.ret (.xf s.xfs.pool.objs.length)
  | .setFont i f => (s.xf? i).bind fun x => (opt s.font? f).bind fun f => (s.touchXf x).bind fun X =>
      (s.xfs.pool.put x { X with font := f }).bind fun P =>
        let s' := { s with xfs := { s.xfs with pool := P } }
        (s'.touchXf x).map fun _ => s'.ret .nothing
  | .setFormat i f => (s.xf? i).bind fun x => (opt s.format? f).bind fun f => (s.touchXf x).bind fun X =>
      (s.xfs.pool.put x { X with format := f }).bind fun P =>
        let s' := { s with xfs := { s.xfs with pool := P } }
        (s'.touchXf x).map fun _ => s'.ret .nothing
  | .onXf i => (s.xf? i).bind fun x => (s.touchXf x).map fun _ => s.ret .nothing
  | .onFont i => (s.font? i).bind fun f => (s.fonts.pool.live f).map fun _ => s.ret .nothing
  | .cell i key x long st => (s.sheet? i).bind fun sh => (opt s.xf? x).bind fun x => (opt s.thing? st).bind fun st =>
      (s.addCell { kind := .cell, sheet := sh, key := key, long := long, stacks := st.toList } (x.getD 15)).map
        (·.ret (.thing s.things.objs.length))
  | .find i key => (s.sheet? i).bind fun sh => (s.find sh key).map fun r => r.1.ret (.thing r.2)
  | .note i key x => (s.sheet? i).bind fun sh => (opt s.xf? x).bind fun x =>
      (s.addCell { kind := .note, sheet := sh, key := key } (x.getD 15)).bind fun s' =>
        (s'.bounds.list[sh]?.bind fun b => s'.bounds.pool.live b).map fun _ => s'.ret (.thing s.things.objs.length)
  | .colwidth i c x => (s.sheet? i).bind fun sh => (opt s.xf? x).bind fun x =>
      (s.addSize { kind := .col, sheet := sh, key := (0, c), xf := x }).map (·.ret .nothing)
  | .rowheight i r x => (s.sheet? i).bind fun sh => (opt s.xf? x).bind fun x =>
      (s.addSize { kind := .row, sheet := sh, key := (r, 0), xf := x }).map (·.ret .nothing)
  | .merge i => (s.sheet? i).bind fun sh => (s.append { kind := .merged, sheet := sh }).map (·.ret .nothing)
  | .range i => (s.sheet? i).bind fun sh => (s.append { kind := .range, sheet := sh }).map (·.ret (.thing s.things.objs.length))
  | .stack i => (s.sheet? i).bind fun sh => (s.append { kind := .stack, sheet := sh }).map (·.ret (.thing s.things.objs.length))
  | .push i => (s.thing? i).bind fun n => (s.things.live n).map fun _ => s.ret .nothing
  | .validate i c1 c2 => (s.sheet? i).bind fun sh => (opt s.thing? c1).bind fun c1 => (opt s.thing? c2).bind fun c2 =>
      (s.append { kind := .dval, sheet := sh, stacks := c1.toList ++ c2.toList }).map (·.ret .nothing)
  | .link i c => (s.sheet? i).bind fun sh => (s.thing? c).bind fun n => (s.things.live n).bind fun _ =>
      (s.append { kind := .link, sheet := sh }).map (·.ret .nothing)
  | .act i a => (s.thing? i).bind fun n => (s.act n a).map (·.ret .nothing)
  | .over i l => (s.thing? i).bind fun n => (s.things.live n).bind fun t => (St.over t.sheet l s).map (·.ret .nothing)
  | .property k => (s.setItem k).map (·.ret .nothing)
  | .save => s.readAll.map fun _ => s.ret .nothing

def run (p : List Call) : Option St := p.foldlM step start

/-- `~worksheet`, sheetrec.cpp 126-221, and the `delete` of the sheet. -/
def St.endSheet (s : St) (n : Nat) : Option St :=
  (s.sheets.pool.live n).bind fun sh => ((Kind.all.flatMap sh.list).foldlM St.destroy s).bind fun s =>
    (s.sheets.pool.del n).map fun P => { s with sheets := { s.sheets with pool := P } }

/-- `~workbook`, workbook.cpp 87-94, then its members from the last to the first (workbook.h 103-108): the list of sheets, the property sets
    (HPSF.cpp 148-158), and `~CGlobalRecords`, globalrec.cpp 247-295: fonts, number formats, formats, styles, sheet entries. -/
def finish (s : St) : Option St :=
  (s.sheets.list.foldlM St.endSheet s).bind fun s =>
  s.items.clear.bind fun it => s.fonts.clear.bind fun fo => s.formats.clear.bind fun fm => s.xfs.clear.bind fun xf =>
  s.styles.clear.bind fun st => s.bounds.clear.map fun bo =>
    { s with sheets := { s.sheets with list := [] }, items := it, fonts := fo, formats := fm, xfs := xf, styles := st, bounds := bo }

end Xls.Mem
