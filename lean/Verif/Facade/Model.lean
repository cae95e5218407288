import Verif.Map

/-!
# Model of `src/facade/handle.rs` and `src/facade/c_interface.rs`

The objects behind handles, and the functions of `src/facade/mod.rs` that make them, are those of an arbitrary world, whose functions may succeed,
fail with a message, or panic. An error is its message (`qm.rs:12-29`).

A handle is the address of a box. The boxes that are alive are a finite map from addresses to contents, and so are the strings handed out. Where a
new box goes is up to an allocator, which may use any address that is not in use, in particular one that has been freed. Reading or freeing at an
address where nothing is alive is undefined behaviour, and so the end of the model: the result of a call is `none`.

Not modelled: running out of memory, null or dangling pointers to texts and arrays, enum values out of range, panics in destructors, and threads.
That texts are decoded from bytes is left to the world. Boxes of handles and strings live in separate maps.
-/

namespace QM.Facade

/-- What a function of the library may do. -/
inductive Res (α : Type) where
  | ok (x : α)
  | err (message : String)
  | panic

/-- `QmDedupControl`, `c_interface.rs:23-28`; `convert_dedup`, `421-427`, maps it to the `DedupControl` of the same name. -/
inductive Dedup where
  | errorIfMissing
  | inline
  | writeOnce

/-- The objects behind handles and the functions of `mod.rs`. -/
structure World where
  Instrument : Type
  Currency : Type
  MarketData : Type
  FixingTable : Type
  PricerFactory : Type
  ReportGenerator : Type
  Report : Type
  /-- a source of bytes -/
  Bytes : Type
  /-- the three tolerances of a comparison -/
  Tolerances : Type
  /-- `open_c_file`, `c_interface.rs:398-403` -/
  openFile : String → Res Bytes
  /-- `bytes_from_c_string`, `c_interface.rs:405-407` -/
  bytes : String → Bytes
  /-- `instrument_from_json`, `mod.rs:35-53` -/
  instrumentFromJson : Bytes → Dedup → List Currency → Dedup → List Instrument → Res Instrument
  /-- `currency_from_json`, `mod.rs:64-71` -/
  currencyFromJson : Bytes → Res Currency
  /-- `pricer_factory_from_json`, `mod.rs:76-83` -/
  pricerFactoryFromJson : Bytes → Res PricerFactory
  /-- `fixing_table_from_json`, `mod.rs:87-94` -/
  fixingTableFromJson : Bytes → Res FixingTable
  /-- `market_data_from_json`, `mod.rs:100-107` -/
  marketDataFromJson : Bytes → Res MarketData
  /-- `report_generator_from_json`, `mod.rs:111-118` -/
  reportGeneratorFromJson : Bytes → Res ReportGenerator
  /-- `reports_from_json`, `mod.rs:123-130` -/
  reportsFromJson : Bytes → Res (List Report)
  /-- `calculate`, `mod.rs:134-150` -/
  calculate : PricerFactory → Instrument → FixingTable → MarketData → List ReportGenerator → Res (List Report)
  /-- `assert_approx_eq_reports`, `mod.rs:171-183` -/
  compare : List Report → List Report → Tolerances → Res Unit
  /-- `write_results`, `mod.rs:154-157`, and `String::from_utf8` -/
  write : List Report → Res String
  /-- whether `println!` panics, `handle.rs:219` -/
  printPanics : Bool

variable {W : World}

/-- `Handle`, `handle.rs:13-23`. -/
inductive Handle (W : World) where
  | empty
  | instrument (x : W.Instrument)
  | currency (x : W.Currency)
  | marketData (x : W.MarketData)
  | fixingTable (x : W.FixingTable)
  | pricerFactory (x : W.PricerFactory)
  | reportGenerator (x : W.ReportGenerator)
  | reports (x : List W.Report)
  | err (message : String)

/-- The name in `wrong_type`, `handle.rs:159-169`. -/
def Handle.supplied : Handle W → String
  | .empty => "Empty"
  | .instrument _ => "Instrument"
  | .currency _ => "Currency"
  | .marketData _ => "MarketData"
  | .fixingTable _ => "FixingTable"
  | .pricerFactory _ => "PricerFactory"
  | .reportGenerator _ => "ReportGenerator"
  | .reports _ => "Reports"
  | .err _ => "Error"

/-- `wrong_type`, `handle.rs:157-172`. -/
def Handle.wrongType (h : Handle W) (requested : String) : String :=
  "Wrong handle type: " ++ requested ++ " required but " ++ h.supplied ++ " supplied"

/-- `as_instrument`, `handle.rs:94-100`. -/
def Handle.asInstrument : Handle W → Except String W.Instrument
  | .instrument x => .ok x
  | .err e => .error e
  | h => .error (h.wrongType "Instrument")

/-- `as_currency`, `handle.rs:102-108`. -/
def Handle.asCurrency : Handle W → Except String W.Currency
  | .currency x => .ok x
  | .err e => .error e
  | h => .error (h.wrongType "Currency")

/-- `as_market_data`, `handle.rs:110-116`. -/
def Handle.asMarketData : Handle W → Except String W.MarketData
  | .marketData x => .ok x
  | .err e => .error e
  | h => .error (h.wrongType "MarketData")

/-- `as_fixing_table`, `handle.rs:118-124`. -/
def Handle.asFixingTable : Handle W → Except String W.FixingTable
  | .fixingTable x => .ok x
  | .err e => .error e
  | h => .error (h.wrongType "FixingTable")

/-- `as_pricer_factory`, `handle.rs:126-132`. -/
def Handle.asPricerFactory : Handle W → Except String W.PricerFactory
  | .pricerFactory x => .ok x
  | .err e => .error e
  | h => .error (h.wrongType "PricerFactory")

/-- `as_report_generator`, `handle.rs:134-140`. -/
def Handle.asReportGenerator : Handle W → Except String W.ReportGenerator
  | .reportGenerator x => .ok x
  | .err e => .error e
  | h => .error (h.wrongType "ReportGenerator")

/-- `as_reports`, `handle.rs:142-148`. -/
def Handle.asReports : Handle W → Except String (List W.Report)
  | .reports x => .ok x
  | .err e => .error e
  | h => .error (h.wrongType "Reports")

/-- `as_error`, `handle.rs:150-155`. -/
def Handle.asError : Handle W → String
  | .err e => e
  | h => h.wrongType "Error"

/-- `clone`, `handle.rs:179-191`. -/
def Handle.clone : Handle W → Handle W
  | .reports _ => .err "Reports cannot be cloned"
  | h => h

/-- `from_instrument` and so on, `handle.rs:26-85`, inside the closure of a call: the error of the function becomes an error handle, a panic leaves
the closure. -/
def fromResult {α : Type} (make : α → Handle W) : Res α → Res (Handle W)
  | .ok x => .ok (make x)
  | .err e => .ok (.err e)
  | .panic => .panic

/-- The memory that has been handed out. -/
structure State (W : World) where
  handles : Map Nat (Handle W)
  strings : Map Nat String

/-- Where new boxes go: somewhere that is not in use. -/
structure Allocator where
  choose : List Nat → Nat
  fresh : ∀ used, choose used ∉ used

/-- The addresses in use. -/
def used {V : Type} (m : Map Nat V) : List Nat := m.entries.map Prod.fst

/-- What a call returns. -/
inductive Reply where
  | handle (address : Nat)
  | string (address : Nat)
  | flag (value : Bool)
  | nothing

variable (A : Allocator)

/-- `Box::into_raw(Box::new(handle))`, `handle.rs:211-216`. -/
def State.newHandle (s : State W) (h : Handle W) : State W × Reply :=
  ({ s with handles := s.handles.insert (A.choose (used s.handles)) h }, .handle (A.choose (used s.handles)))

/-- `CString::into_raw`. -/
def State.newString (s : State W) (text : String) : State W × Reply :=
  ({ s with strings := s.strings.insert (A.choose (used s.strings)) text }, .string (A.choose (used s.strings)))

/-- `return_handle`, `c_interface.rs:409-419`, with `from_handle`, `handle.rs:211-216`. -/
def returnHandle (s : State W) : Res (Handle W) → State W × Reply
  | .ok h => s.newHandle A h
  | .err e => s.newHandle A (.err e)
  | .panic => s.newHandle A (.err "Caught panic when creating handle")

/-- The `CString::new(text).unwrap()` within `catch_unwind`, `c_interface.rs:264-270` and `357-363`: a text with a zero byte in it panics. -/
def cString (fallback : String) : Res String → String
  | .ok text => if '\x00' ∈ text.toList then fallback else text
  | .err _ => fallback
  | .panic => fallback

/-- The source of a text: the functions `…_from_json_file` and `…_from_json_string`. -/
inductive Source where
  | file (name : String)
  | text (content : String)

/-- Opening the source. -/
def Source.open : Source → Res W.Bytes
  | .file name => W.openFile name
  | .text content => .ok (W.bytes content)

/-- The calls of the interface. An array of handles is a list of addresses. -/
inductive Call (W : World) where
  | instrument (source : Source) (dedupCcy : Dedup) (currencies : List Nat) (dedupInstr : Dedup) (instruments : List Nat)
  | currency (source : Source)
  | pricerFactory (source : Source)
  | fixingTable (source : Source)
  | marketData (source : Source)
  | reportGenerator (source : Source)
  | reports (source : Source)
  | reportsAsJson (handle : Nat)
  | calculate (pricerFactory instrument fixingTable marketData : Nat) (generators : List Nat)
  | compare (reports expected : Nat) (tolerances : W.Tolerances)
  | isError (handle : Nat)
  | errorString (handle : Nat)
  | freeString (string : Nat)
  | clone (handle : Nat)
  | freeHandle (handle : Nat)

/-- Reading a handle and converting it: `none` if nothing is alive there. -/
def readAs {α : Type} (as : Handle W → Except String α) (s : State W) (h : Nat) : Option (Except String α) := (s.handles.get h).map as

/-- The loops over arrays of handles, which stop at the first error, `c_interface.rs:49-56` and `301-303`. -/
def readAll {α : Type} (as : Handle W → Except String α) (s : State W) : List Nat → Option (Except String (List α))
  | [] => some (.ok [])
  | h :: rest =>
    match readAs as s h with
    | none => none
    | some (.error e) => some (.error e)
    | some (.ok x) =>
      match readAll as s rest with
      | none => none
      | some (.error e) => some (.error e)
      | some (.ok xs) => some (.ok (x :: xs))

/-- The `?` of a closure on something read. -/
def andThen {α : Type} (r : Option (Except String α)) (f : α → Option (Res (Handle W))) : Option (Res (Handle W)) :=
  match r with
  | none => none
  | some (.error e) => some (.err e)
  | some (.ok x) => f x

/-- The `?` of a closure on the source. -/
def withSource (source : Source) (f : W.Bytes → Option (Res (Handle W))) : Option (Res (Handle W)) :=
  match source.open with
  | .ok b => f b
  | .err e => some (.err e)
  | .panic => some .panic

/-- The closure of `qm_instrument_from_json_file` and `…_string`, `c_interface.rs:46-63` and `75-94`. -/
def instrumentBody (s : State W) (source : Source) (dedupCcy : Dedup) (currencies : List Nat) (dedupInstr : Dedup) (instruments : List Nat) :
    Option (Res (Handle W)) :=
  withSource source fun b =>
  andThen (readAll Handle.asCurrency s currencies) fun ccys =>
  andThen (readAll Handle.asInstrument s instruments) fun instrs =>
  some (fromResult .instrument (W.instrumentFromJson b dedupCcy ccys dedupInstr instrs))

/-- The closure of `qm_calculate`, `c_interface.rs:294-308`. -/
def calculateBody (s : State W) (pricerFactory instrument fixingTable marketData : Nat) (generators : List Nat) : Option (Res (Handle W)) :=
  andThen (readAs Handle.asPricerFactory s pricerFactory) fun pf =>
  andThen (readAs Handle.asInstrument s instrument) fun instr =>
  andThen (readAs Handle.asFixingTable s fixingTable) fun fix =>
  andThen (readAs Handle.asMarketData s marketData) fun mkt =>
  andThen (readAll Handle.asReportGenerator s generators) fun gens =>
  some (fromResult .reports (W.calculate pf instr fix mkt gens))

/-- The closure of `qm_assert_approx_eq_reports` once both handles are unpacked, `c_interface.rs:336-338`. -/
def compareBody (reports expected : Except String (List W.Report)) (tolerances : W.Tolerances) : Res (Handle W) :=
  match reports with
  | .error e => .err e
  | .ok r =>
    match expected with
    | .error e => .err e
    | .ok x => fromResult (fun _ => .empty) (W.compare r x tolerances)

/-- `reports_as_string`, `handle.rs:268-283`. -/
def reportsAsString : Handle W → Res String
  | .reports r =>
    match W.write r with
    | .ok text => .ok text
    | .err _ => .panic
    | .panic => .panic
  | .err e => .ok e
  | _ => .ok "reports_as_string: not a report handle"

/-- One call of the interface. -/
def step (s : State W) : Call W → Option (State W × Reply)
  | .instrument source dedupCcy currencies dedupInstr instruments =>
    (instrumentBody s source dedupCcy currencies dedupInstr instruments).map (returnHandle A s)
  -- `c_interface.rs:105-121`
  | .currency source => (withSource source fun b => some (fromResult .currency (W.currencyFromJson b))).map (returnHandle A s)
  -- `c_interface.rs:132-149`
  | .pricerFactory source => (withSource source fun b => some (fromResult .pricerFactory (W.pricerFactoryFromJson b))).map (returnHandle A s)
  -- `c_interface.rs:157-174`
  | .fixingTable source => (withSource source fun b => some (fromResult .fixingTable (W.fixingTableFromJson b))).map (returnHandle A s)
  -- `c_interface.rs:182-199`
  | .marketData source => (withSource source fun b => some (fromResult .marketData (W.marketDataFromJson b))).map (returnHandle A s)
  -- `c_interface.rs:209-226`
  | .reportGenerator source => (withSource source fun b => some (fromResult .reportGenerator (W.reportGeneratorFromJson b))).map (returnHandle A s)
  -- `c_interface.rs:237-253`
  | .reports source => (withSource source fun b => some (fromResult .reports (W.reportsFromJson b))).map (returnHandle A s)
  -- `qm_reports_as_json_string`, `c_interface.rs:263-273`
  | .reportsAsJson h =>
    (s.handles.get h).map fun x => s.newString A (cString "Caught panic when converting result string" (reportsAsString x))
  | .calculate pf instr fix mkt gens => (calculateBody s pf instr fix mkt gens).map (returnHandle A s)
  -- `qm_assert_approx_eq_reports`, `c_interface.rs:328-340`, with `extern_handle::as_reports`, `handle.rs:261-264`, which frees
  | .compare reports expected tolerances =>
    match s.handles.get reports with
    | none => none
    | some x =>
      let s : State W := { s with handles := s.handles.remove reports }
      match s.handles.get expected with
      | none => none
      | some y =>
        let s : State W := { s with handles := s.handles.remove expected }
        some (returnHandle A s (compareBody x.asReports y.asReports tolerances))
  -- `qm_is_error`, `c_interface.rs:345-348`, with `is_error`, `handle.rs:296-298`
  | .isError h => (s.handles.get h).map fun x => (s, .flag (match x with | .err _ => true | _ => false))
  -- `qm_error_string`, `c_interface.rs:356-366`
  | .errorString h => (s.handles.get h).map fun x => s.newString A (cString "Caught panic when converting error string" (.ok x.asError))
  -- `qm_free_string`, `c_interface.rs:371-373`
  | .freeString p => (s.strings.get p).map fun _ => ({ s with strings := s.strings.remove p }, .nothing)
  -- `qm_clone`, `c_interface.rs:379-384`, with `clone_handle`, `handle.rs:218-225`
  | .clone h =>
    if W.printPanics then some (s.newHandle A (.err "Caught panic during clone"))
    else (s.handles.get h).map fun x => s.newHandle A x.clone
  -- `qm_free_handle`, `c_interface.rs:390-396`, with `free_handle`, `handle.rs:302-304`
  | .freeHandle h => (s.handles.get h).map fun _ => ({ s with handles := s.handles.remove h }, .nothing)

end QM.Facade
