import Verif.Model.Params
import Verif.Model.Portfolio

/-!
# Indicator pipeline: `vectorbt/indicators/factory.py`, `vectorbt/base/combine_fns.py`

An array is a number of rows and a list of columns; what a column holds is left open (`α`).  Functions that write
into in-place outputs return what these hold afterwards.  Inputs are taken after broadcasting (`reshape_fns.broadcast`,
see C17 for its flexible indexing) and as two-dimensional, and parameter values after `prepare_params`.  Not modelled: caching,
seeds, `keep_pd`, Ray, progress bars, per-parameter settings, and the removal of redundant levels in `stack_indexes`.
-/

namespace Vbt

/-- A two-dimensional array: its number of rows and its columns. -/
structure Arr2 (α : Type) where
  nrows : Nat
  cols : List α
deriving DecidableEq, Repr

/-- `a[:, lo:hi]`. -/
def Arr2.part {α : Type} (a : Arr2 α) (lo hi : Nat) : Arr2 α := ⟨a.nrows, (a.cols.take hi).drop lo⟩

/-- `reshape_fns.tile(a, n, axis=1)`, base/reshape_fns.py:143-166. -/
def Arr2.tile {α : Type} (a : Arr2 α) (n : Nat) : Arr2 α := ⟨a.nrows, (List.range n).flatMap fun _ => a.cols⟩

/-- `np.hstack` and `np.column_stack` of two-dimensional arrays. -/
def hstackE {α : Type} (as : List (Arr2 α)) : Except Err (Arr2 α) :=
  match as with
  | [] => .error (.valueError "need at least one array to concatenate")
  | a :: rest =>
    if rest.all (fun b => b.nrows == a.nrows) then .ok ⟨a.nrows, (a :: rest).flatMap Arr2.cols⟩
    else .error (.valueError "all the input array dimensions except for the concatenation axis must match exactly")

/-- `list(zip(*rows))`. -/
def zipAll {β : Type} (rows : List (List β)) : List (List β) := unzipRows ((rows.map List.length).sum + 1) rows

/-- `rows[i]` for a list. -/
def getE {β : Type} (rows : List β) (i : Nat) : Except Err β :=
  match rows[i]? with
  | some x => .ok x
  | none => .error (.indexError "list index out of range")

/-- What a function that fills in-place outputs leaves in them, and what it returns. -/
abbrev Filled (α : Type) : Type := List (Arr2 α) × List (Arr2 α)

/-- `apply_and_concat_multiple`, base/combine_fns.py:103-119; with one array per call it is `apply_and_concat_one`
(50-70), with none it is `apply_and_concat_none` (19-34).  The first component lists what the in-place outputs of each call hold. -/
def applyConcat {α : Type} (n : Nat) (call : Nat → Except Err (Filled α)) : Except Err (List (List (Arr2 α)) × List (Arr2 α)) :=
  match mapE call (List.range n) with
  | .error e => .error e
  | .ok rs =>
    match mapE hstackE (zipAll (rs.map Prod.snd)) with
    | .error e => .error e
    | .ok outs => .ok (rs.map Prod.fst, outs)

/-- `output[:, lo : lo + w] = a` where `w` is the width of `a`. -/
def assignCols {α : Type} (buf : Arr2 α) (lo : Nat) (a : Arr2 α) : Except Err (Arr2 α) :=
  if a.nrows = buf.nrows ∧ (buf.cols.take (lo + a.cols.length)).length = lo + a.cols.length then
    .ok ⟨buf.nrows, buf.cols.take lo ++ a.cols ++ buf.cols.drop (lo + a.cols.length)⟩
  else .error (.valueError "cannot assign slice from input of different size")

/-- The turns of the inner loop of `apply_and_concat_multiple_nb`, base/combine_fns.py:154-155. -/
def assignAll {α : Type} (i : Nat) : List (Arr2 α) → List (Arr2 α) → Except Err (List (Arr2 α))
  | bufs, [] => .ok bufs
  | [], _ :: _ => .error (.indexError "list index out of range")
  | buf :: bufs, a :: as =>
    match assignCols buf (i * a.cols.length) a with
    | .error e => .error e
    | .ok b =>
      match assignAll i bufs as with
      | .error e => .error e
      | .ok bs => .ok (b :: bs)

/-- One turn of the loop of `apply_and_concat_multiple_nb`, base/combine_fns.py:149-155, for a result already at hand. -/
def concatTurn {α : Type} (bufs : List (Arr2 α)) (ir : Nat × Filled α) : Except Err (List (Arr2 α)) :=
  assignAll ir.1 bufs ir.2.2

/-- `apply_and_concat_multiple_nb`, base/combine_fns.py:135-156; with one array per call it is `apply_and_concat_one_nb` (83-101).
`junk` is what `np.empty` holds.  Calls and writes do not depend on each other, so all calls come first here. -/
def applyConcatNb {α : Type} (junk : Nat → Nat → α) (n : Nat) (call : Nat → Except Err (Filled α)) :
    Except Err (List (List (Arr2 α)) × List (Arr2 α)) :=
  match call 0 with
  | .error e => .error e
  | .ok r0 =>
    let bufs := r0.2.zipIdx.map fun aj => (⟨aj.1.nrows, (List.range (n * aj.1.cols.length)).map (junk aj.2)⟩ : Arr2 α)
    match mapE (fun i => if i = 0 then .ok r0 else call i) (List.range n) with
    | .error e => .error e
    | .ok rs =>
      match loopE concatTurn bufs (rs.zipIdx.map fun ri => (ri.2, ri.1)) with
      | .error e => .error e
      | .ok outs => .ok (rs.map Prod.fst, outs)

/-- `apply_func` of an indicator: column (if passed), inputs, in-place outputs and one parameter combination. -/
abbrev ApplyFunc (P α : Type) : Type := Option Nat → List (Arr2 α) → List (Arr2 α) → List P → Except Err (Filled α)

/-- `custom_func` of an indicator: column (if passed), inputs, for each in-place output its chunks, for each parameter its values. -/
abbrev CustomFunc (P α : Type) : Type :=
  Option Nat → List (Arr2 α) → List (List (Arr2 α)) → List (List P) → Except Err (List (List (Arr2 α)) × List (Arr2 α))

/-- Element `i` of `zip(*rows)`, or nothing if the indicator has no such rows, indicators/factory.py:3268-3287. -/
def rowOf {β : Type} (rows : List (List β)) (i : Nat) : Except Err (List β) :=
  match rows with
  | [] => .ok []
  | _ :: _ => getE (zipAll rows) i

/-- `select_params_func`, indicators/factory.py:3257-3296. -/
def selectParams {P α : Type} (apply : ApplyFunc P α) (col : Option Nat) (inputs : List (Arr2 α)) (inOuts : List (List (Arr2 α)))
    (params : List (List P)) (i : Nat) : Except Err (Filled α) :=
  match rowOf inOuts i with
  | .error e => .error e
  | .ok io =>
    match rowOf params i with
    | .error e => .error e
    | .ok t => apply col inputs io t

/-- `len(param_list[0]) if len(param_list) > 0 else 1`, indicators/factory.py:1679, 1697 and 3343. -/
def nValues {P : Type} (params : List (List P)) : Nat :=
  match params with
  | [] => 1
  | p :: _ => p.length

/-- The `custom_func` of `from_apply_func` with the loop in Python, indicators/factory.py:3300-3415.
In-place outputs are given back one list of chunks for each. -/
def applyCustom {P α : Type} (apply : ApplyFunc P α) : CustomFunc P α := fun col inputs inOuts params =>
  match applyConcat (nValues params) (selectParams apply col inputs inOuts params) with
  | .error e => .error e
  | .ok (ios, outs) => .ok ((List.range inOuts.length).map fun j => ios.filterMap fun io => io[j]?, outs)

/-- Options of `run_pipeline`, indicators/factory.py:1343-1375. -/
structure PipeOpts where
  runUnique : Bool
  perColumn : Bool
  paramProduct : Bool
  passCol : Bool
  hideLevels : List Nat

/-- Product and broadcasting of parameters, indicators/factory.py:1660-1678; `ncols` is the number of input columns. -/
def pipeParams {P : Type} [DecidableEq P] (o : PipeOpts) (ncols : Nat) (params : List (List P)) : Except Err (List (List P)) :=
  let ps := if params.length > 1 ∧ o.paramProduct then createParamProduct params else params
  match ps with
  | [] => .ok []
  | _ :: _ => broadcastParams ps (if o.perColumn then some ncols else none)

/-- `list(OrderedDict.fromkeys(tuples).keys())`. -/
def distinct {β : Type} [DecidableEq β] (l : List β) : List β := l.foldl (fun acc x => if x ∈ acc then acc else acc ++ [x]) []

/-- Whether only unique parameter combinations are run, and the lists of these, indicators/factory.py:1680-1691. -/
def uniqueParams {P : Type} [DecidableEq P] (o : PipeOpts) (params : List (List P)) : Bool × List (List P) :=
  if ¬ o.perColumn ∧ o.runUnique then
    let tuples := zipAll params
    let unique := distinct tuples
    if unique.length < tuples.length then (true, zipAll unique) else (false, params)
  else (false, params)

/-- The in-place outputs after broadcasting: once one of them has been provided, the list holds the provided ones only,
indicators/factory.py:1602-1605 and 1629-1633. -/
def givenInOuts {α : Type} (given : List (Option (Arr2 α))) : List (Option (Arr2 α)) :=
  if given.all Option.isNone then given else (given.filter Option.isSome)

/-- One turn of the preparation of in-place outputs, indicators/factory.py:1729-1746: the state is the list so far and `j`. -/
def inOutTurn {α : Type} (shape : Nat × Nat) (perColumn : Bool) (n : Nat) (junk : Nat → Nat → α) (given given' : List (Option (Arr2 α)))
    (st : List (Arr2 α) × Nat) (i : Nat) : List (Arr2 α) × Nat :=
  match given[i]? with
  | some (some _) =>
    -- `in_output_list[j]`: positions below `i` have been overwritten by then
    let a : Arr2 α :=
      match st.1[st.2]? with
      | some b => b
      | none => match given'[st.2]? with
        | some (some b) => b
        | _ => ⟨shape.1, []⟩
    (st.1 ++ [if perColumn then a else a.tile n], st.2 + 1)
  | _ => (st.1 ++ [⟨shape.1, (List.range (shape.2 * n)).map (junk i)⟩], st.2)

/-- Preparation of in-place outputs, indicators/factory.py:1726-1746; `junk` is what `np.empty` holds. -/
def wideInOuts {α : Type} (shape : Nat × Nat) (perColumn : Bool) (n : Nat) (junk : Nat → Nat → α) (given : List (Option (Arr2 α))) :
    List (Arr2 α) :=
  ((List.range (givenInOuts given).length).foldl (inOutTurn shape perColumn n junk given (givenInOuts given)) ([], 0)).1

/-- The chunks of an in-place output, indicators/factory.py:1747-1759. -/
def chunksOf {α : Type} (w n : Nat) (wide : Arr2 α) : List (Arr2 α) :=
  (List.range n).map fun i => wide.part (i * w) ((i + 1) * w)

/-- What a wide in-place output holds once its chunks, which are views of it, have been written. -/
def writeChunks {α : Type} (w : Nat) (wide : Arr2 α) (chunks : List (Arr2 α)) : Arr2 α :=
  ⟨wide.nrows, chunks.flatMap Arr2.cols ++ wide.cols.drop (chunks.length * w)⟩

/-- `_split_output`, indicators/factory.py:1885-1911. -/
def splitOutput {α : Type} (numRet : Nat) (out : List (Arr2 α)) : Except Err (List (Arr2 α)) :=
  if (out.take numRet).length = numRet then .ok (out.take numRet)
  else .error (.valueError "Number of returned outputs other than expected")

/-- The call for one column, indicators/factory.py:1823-1870. -/
def callColumn {P α : Type} (o : PipeOpts) (custom : CustomFunc P α) (inputs : List (Arr2 α)) (chunks : List (List (Arr2 α)))
    (params : List (List P)) (col : Nat) : Except Err (List (List (Arr2 α)) × List (Arr2 α)) :=
  match mapE (fun cs => getE cs col) chunks with
  | .error e => .error e
  | .ok ios =>
    match mapE (fun ps => getE ps col) params with
    | .error e => .error e
    | .ok t =>
      custom (if o.passCol then some col else none) (inputs.map fun a => a.part col (col + 1)) (ios.map fun c => [c]) (t.map fun p => [p])

/-- All calls and the collection of returned outputs, indicators/factory.py:1821-1924: in-place outputs afterwards, and outputs. -/
def callAll {P α : Type} (o : PipeOpts) (numRet : Nat) (custom : CustomFunc P α) (inputs : List (Arr2 α)) (shape : Nat × Nat)
    (wides : List (Arr2 α)) (params : List (List P)) : Except Err (List (Arr2 α) × List (Arr2 α)) :=
  let n := nValues params
  if o.perColumn then
    let chunks := wides.map (chunksOf 1 n)
    match mapE (callColumn o custom inputs chunks params) (List.range shape.2) with
    | .error e => .error e
    | .ok rs =>
      match mapE (fun r => splitOutput numRet r.2) rs with
      | .error e => .error e
      | .ok outss =>
        match mapE hstackE (zipAll outss) with
        | .error e => .error e
        | .ok outs =>
          .ok (wides.zipIdx.map fun wj => writeChunks 1 wj.1 ((chunksOf 1 n wj.1).zipIdx.map fun ci =>
            (((rs[ci.2]?).bind fun r => r.1[wj.2]?).bind fun l => l[0]?).getD ci.1), outs)
  else
    let chunks := wides.map (chunksOf shape.2 n)
    match custom none inputs chunks params with
    | .error e => .error e
    | .ok (ios, out) =>
      match splitOutput numRet out with
      | .error e => .error e
      | .ok outs => .ok (wides.zipIdx.map fun wj => writeChunks shape.2 wj.1 ((ios[wj.2]?).getD (chunksOf shape.2 n wj.1)), outs)

/-- The result of `run_pipeline` with `return_raw=True`: outputs, parameter combinations and number of input columns. -/
structure Raw (P α : Type) where
  outputs : List (Arr2 α)
  paramMap : List (List P)
  nInputCols : Nat
deriving DecidableEq, Repr

/-- Checks of outputs and the raw result, indicators/factory.py:1926-1952. -/
def checkRaw {P α : Type} (o : PipeOpts) (shape : Nat × Nat) (params : List (List P)) (outputs : List (Arr2 α)) : Except Err (Raw P α) :=
  match outputs with
  | [] => .error (.indexError "list index out of range")
  | a :: _ =>
    if outputs.all (fun b => b.nrows == a.nrows && b.cols.length == a.cols.length) then
      let w := if o.perColumn then 1 else shape.2
      let nInputCols := if o.perColumn then 1 else a.cols.length / nValues params
      if nValues params = 0 ∧ ¬ o.perColumn then .error .zeroDivision
      else if nInputCols = w then .ok ⟨outputs, zipAll params, nInputCols⟩
      else .error (.valueError "All outputs must have the number of columns = #input columns x #parameters")
    else .error (.valueError "All outputs must have the same shape")

/-- `_param_map.index(param_tuple)`. -/
def tupleIndex {P : Type} [DecidableEq P] (paramMap : List (List P)) (t : List P) : Except Err Nat :=
  match paramMap.idxOf? t with
  | some i => .ok i
  | none => .error (.valueError "tuple is not in list")

/-- `_use_raw`, indicators/factory.py:1764-1771. -/
def useRaw {P α : Type} [DecidableEq P] (raw : Raw P α) (params : List (List P)) : Except Err (List (Arr2 α)) :=
  match mapE (tupleIndex raw.paramMap) (zipAll params) with
  | .error e => .error e
  | .ok idxs =>
    mapE (fun out => hstackE (idxs.map fun i => out.part (i * raw.nInputCols) ((i + 1) * raw.nInputCols))) raw.outputs

/-- Column labels: values of the shown parameters and the label of the input column, indicators/factory.py:1270-1326.
`repeat_index` repeats each value, `tile_index` the whole index. -/
def buildColumns {P L : Type} (o : PipeOpts) (params : List (List P)) (inputColumns : List L) : List (List P) × List (List P × L) :=
  let levels := params.map fun p => if o.perColumn then p else p.flatMap fun x => inputColumns.map fun _ => x
  let shown := (levels.zipIdx.filter fun li => li.2 ∉ o.hideLevels).map Prod.fst
  if shown = [] then (levels, inputColumns.map fun l => ([], l))
  else
    let tiled := if o.perColumn then inputColumns else (List.range (nValues params)).flatMap fun _ => inputColumns
    (levels, (zipAll shown).zip tiled)

/-- The result of `run_pipeline`, and of `IndicatorBase` built from it; `columns` are those of the wrapper. -/
structure PipeResult (P α L : Type) where
  inOutputs : List (Arr2 α)
  outputs : List (Arr2 α)
  params : List (List P)
  mappers : List (List P)
  inputMapper : Option (List Nat)
  columns : List (List P × L)
deriving DecidableEq, Repr

/-- The end of `run_pipeline`, indicators/factory.py:1969-2011; `nIn` is the length of `in_output_list`. -/
def finishPipeline {P α L : Type} (o : PipeOpts) (hasInputs : Bool) (nIn : Nat) (labels : List L) (params : List (List P))
    (outputs : List (Arr2 α)) : PipeResult P α L :=
  match params with
  | [] => ⟨outputs.take nIn, outputs.drop nIn, [], [], none, labels.map fun l => ([], l)⟩
  | _ :: _ =>
    let built := buildColumns o params labels
    let mapper :=
      if ¬ hasInputs then none
      else if o.perColumn then some (List.range labels.length)
      else some ((List.range (nValues params)).flatMap fun _ => List.range labels.length)
    ⟨outputs.take nIn, outputs.drop nIn, params, built.1, mapper, built.2⟩

/-- An indicator with data: function, number of returned outputs, inputs, index length, column labels, in-place outputs. -/
structure Setup (P α L : Type) where
  custom : CustomFunc P α
  numRet : Nat
  inputs : List (Arr2 α)
  nrows : Nat
  labels : List L
  given : List (Option (Arr2 α))
  junk : Nat → Nat → α

/-- The shape of one call: one column with `per_column`, indicators/factory.py:1643-1654. -/
def Setup.shape {P α L : Type} (s : Setup P α L) (o : PipeOpts) : Nat × Nat := (s.nrows, if o.perColumn then 1 else s.labels.length)

/-- `run_pipeline` up to the raw result for prepared parameters, indicators/factory.py:1680-1952. -/
def rawOf {P α L : Type} [DecidableEq P] (o : PipeOpts) (s : Setup P α L) (params : List (List P)) : Except Err (Raw P α) :=
  let u := (uniqueParams o params).2
  let wides := wideInOuts (s.shape o) o.perColumn (nValues u) s.junk s.given
  match callAll o s.numRet s.custom s.inputs (s.nrows, s.labels.length) wides u with
  | .error e => .error e
  | .ok (ios, outs) => checkRaw o (s.shape o) u (ios ++ outs)

/-- `run_pipeline(return_raw=True)`. -/
def pipelineRaw {P α L : Type} [DecidableEq P] (o : PipeOpts) (s : Setup P α L) (params : List (List P)) : Except Err (Raw P α) :=
  match pipeParams o s.labels.length params with
  | .error e => .error e
  | .ok ps => rawOf o s ps

/-- The outputs of `run_pipeline` for prepared parameters, indicators/factory.py:1773-1954. -/
def pipeOutputs {P α L : Type} [DecidableEq P] (o : PipeOpts) (s : Setup P α L) (raw : Option (Raw P α)) (ps : List (List P)) :
    Except Err (List (Arr2 α)) :=
  match raw with
  | some r => useRaw r ps
  | none =>
    match rawOf o s ps with
    | .error e => .error e
    | .ok r => if (uniqueParams o ps).1 then useRaw r ps else .ok r.outputs

/-- `run_pipeline`, indicators/factory.py:1343-2011; `raw` is `use_raw`. -/
def runPipeline {P α L : Type} [DecidableEq P] (o : PipeOpts) (s : Setup P α L) (raw : Option (Raw P α)) (params : List (List P)) :
    Except Err (PipeResult P α L) :=
  match pipeParams o s.labels.length params with
  | .error e => .error e
  | .ok ps =>
    match pipeOutputs o s raw ps with
    | .error e => .error e
    | .ok outputs => .ok (finishPipeline o (decide (s.inputs.length > 0)) (givenInOuts s.given).length s.labels ps outputs)

/-- The checks of `IndicatorBase.__init__`, indicators/factory.py:2120-2142; `nIn` is the number of names of in-place outputs, for each
of which an element of `in_output_list` is read. -/
def initIndicator {P α L : Type} (nrows nIn : Nat) (r : PipeResult P α L) : Except Err (PipeResult P α L) :=
  if (r.inputMapper.all fun m => m.length == r.columns.length)
      ∧ ((r.inOutputs ++ r.outputs).all fun a => a.nrows == nrows && a.cols.length == r.columns.length)
      ∧ (r.params.all fun p => p.length == nValues r.params)
      ∧ (r.mappers.all fun m => m.length == r.columns.length) then
    if r.inOutputs.length < nIn then .error (.indexError "list index out of range") else .ok r
  else .error (.rejected "AssertionError")

/-- `run` of an indicator, indicators/factory.py:2854-2935. -/
def runIndicator {P α L : Type} [DecidableEq P] (o : PipeOpts) (s : Setup P α L) (raw : Option (Raw P α)) (params : List (List P)) :
    Except Err (PipeResult P α L) :=
  match runPipeline o s raw params with
  | .error e => .error e
  | .ok r => initIndicator s.nrows s.given.length r

/-- Parameters of `run_combs`, indicators/factory.py:3048-3058. -/
def combParams {P : Type} [DecidableEq P] (paramProduct : Bool) (params : List (List P)) : Except Err (List (List P)) :=
  if paramProduct then .ok (createParamProduct params) else broadcastParams params none

/-- `run_combs` of an indicator, indicators/factory.py:3006-3094; `comb` is the combination function applied to all parameter
combinations.  The options `param_product` and `run_unique` are taken by `run_combs` itself; those of the inner runs are the
defaults `False`. -/
def runCombs {P α L : Type} [DecidableEq P] (runUnique paramProduct : Bool) (comb : List (List P) → List (List (List P))) (o : PipeOpts)
    (s : Setup P α L) (params : List (List P)) : Except Err (List (PipeResult P α L)) :=
  match combParams paramProduct params with
  | .error e => .error e
  | .ok ps =>
    let lists := zipAll (comb (zipAll ps))
    if runUnique then
      match pipelineRaw { o with runUnique := false, paramProduct := false } s ps with
      | .error e => .error e
      | .ok raw => mapE (fun tuples => runIndicator { o with runUnique := false, paramProduct := false } s (some raw) (zipAll tuples)) lists
    else mapE (fun tuples => runIndicator { o with runUnique := false, paramProduct := false } s none (zipAll tuples)) lists

end Vbt
