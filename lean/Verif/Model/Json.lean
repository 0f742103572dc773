import Verif.Model.Decompiler

/-! Model of the JSON files that the program writes (src/main.rs:55-56, 78-79): `serde_json::to_string_pretty` (serde_json 1.0.117)
applied to a file, with the `Serialize` instances derived in `src/component.rs`, `src/file.rs` and
`src/fm_script_engine/fm_script_engine_instructions.rs`. The two libraries are not in the repository: their part is modelled after their
documented behaviour. -/

namespace BurnFm

/-- The JSON values that occur. -/
inductive Json where
  | str (s : Str)
  | num (n : Nat)
  | bool (b : Bool)
  | arr (xs : List Json)
  | obj (ms : List (Str × Json))

/-- The digit of a number below 16, as in the escapes of control characters. -/
def hexDigit (n : Nat) : Char := if n < 10 then Char.ofNat (48 + n) else Char.ofNat (87 + n)

/-- A character in a JSON string: quotes, backslashes and control characters are escaped, all others are written as they are. -/
def escapeChar (c : Char) : Str :=
  if c = '"' then ['\\', '"']
  else if c = '\\' then ['\\', '\\']
  else if c.toNat = 8 then ['\\', 'b']
  else if c.toNat = 12 then ['\\', 'f']
  else if c.toNat = 10 then ['\\', 'n']
  else if c.toNat = 13 then ['\\', 'r']
  else if c.toNat = 9 then ['\\', 't']
  else if c.toNat < 32 then ['\\', 'u', '0', '0', hexDigit (c.toNat / 16), hexDigit (c.toNat % 16)]
  else [c]

/-- A JSON string. -/
def quoteJson (s : Str) : Str := '"' :: s.flatMap escapeChar ++ ['"']

/-- A new line, indented by two blanks for each level. -/
def newline (level : Nat) : Str := '\n' :: List.replicate (2 * level) ' '

/-- The parts of a list or an object: each on its own line, with commas between them. -/
def separated (level : Nat) : List Str → Str
  | [] => []
  | [x] => newline level ++ x
  | x :: xs => newline level ++ x ++ [','] ++ separated level xs

/-- Brackets around the parts; nothing between them if there are none. -/
def bracketed (level : Nat) (o c : Char) (parts : List Str) : Str :=
  match parts with
  | [] => [o, c]
  | _ => [o] ++ separated (level + 1) parts ++ newline level ++ [c]

mutual

/-- `serde_json::to_string_pretty`, `level` brackets deep. -/
def prettyJson (level : Nat) : Json → Str
  | .str s => quoteJson s
  | .num n => decimal n
  | .bool b => if b then t!"true" else t!"false"
  | .arr xs => bracketed level '[' ']' (prettyItems (level + 1) xs)
  | .obj ms => bracketed level '{' '}' (prettyMembers (level + 1) ms)
termination_by structural x => x

def prettyItems (level : Nat) : List Json → List Str
  | [] => []
  | x :: xs => prettyJson level x :: prettyItems level xs
termination_by structural x => x

def prettyMembers (level : Nat) : List (Str × Json) → List Str
  | [] => []
  | m :: ms => prettyMember level m :: prettyMembers level ms
termination_by structural x => x

def prettyMember (level : Nat) : Str × Json → Str
  | (k, v) => quoteJson k ++ [':', ' '] ++ prettyJson level v
termination_by structural x => x

end

/-- The name of a variant, which is what a unit variant is written as. -/
def Instruction.variant : Instruction → Str
  | .performScript => t!"PerformScript"
  | .saveACopyAsXml => t!"SaveACopyAsXml"
  | .goToNextField => t!"GoToNextField"
  | .goToPreviousField => t!"GoToPreviousField"
  | .goToLayout => t!"GoToLayout"
  | .newRecordRequest => t!"NewRecordRequest"
  | .duplicateRecordRequest => t!"DuplicateRecordRequest"
  | .deleteRecordRequest => t!"DeleteRecordRequest"
  | .deleteAllRecords => t!"DeleteAllRecords"
  | .insertFromIndex => t!"InsertFromIndex"
  | .insertFromLastVisited => t!"InsertFromLastVisited"
  | .insertCurrentDate => t!"InsertCurrentDate"
  | .insertCurrentTime => t!"InsertCurrentTime"
  | .goToRecordRequestPage => t!"GoToRecordRequestPage"
  | .goToField => t!"GoToField"
  | .checkSelection => t!"CheckSelection"
  | .checkRecord => t!"CheckRecord"
  | .checkFoundSet => t!"CheckFoundSet"
  | .unsortRecords => t!"UnsortRecords"
  | .enterFindMode => t!"EnterFindMode"
  | .showAllRecords => t!"ShowAllRecords"
  | .modifyLastFind => t!"ModifyLastFind"
  | .omitRecord => t!"OmitRecord"
  | .omitMultipleRecords => t!"OmitMultipleRecords"
  | .showOmmitedOnly => t!"ShowOmmitedOnly"
  | .performFind => t!"PerformFind"
  | .showHideToolbars => t!"ShowHideToolbars"
  | .viewAs => t!"ViewAs"
  | .adjustWindow => t!"AdjustWindow"
  | .openHelp => t!"OpenHelp"
  | .openFile => t!"OpenFile"
  | .closeFile => t!"CloseFile"
  | .importRecords => t!"ImportRecords"
  | .exportRecords => t!"ExportRecords"
  | .saveACopyAs => t!"SaveACopyAs"
  | .openManageDatabase => t!"OpenManageDatabase"
  | .sortRecords => t!"SortRecords"
  | .relookupFieldContents => t!"RelookupFieldContents"
  | .enterPreviewMode => t!"EnterPreviewMode"
  | .printSetup => t!"PrintSetup"
  | .print => t!"Print"
  | .exitApplication => t!"ExitApplication"
  | .undoRedo => t!"UndoRedo"
  | .cut => t!"Cut"
  | .copy => t!"Copy"
  | .paste => t!"Paste"
  | .clear => t!"Clear"
  | .selectAll => t!"SelectAll"
  | .revertRecordRequest => t!"RevertRecordRequest"
  | .enterBrowserMode => t!"EnterBrowserMode"
  | .insertPicture => t!"InsertPicture"
  | .sendEvent => t!"SendEvent"
  | .insertCurrentUserName => t!"InsertCurrentUserName"
  | .insertText => t!"InsertText"
  | .pauseResumeScript => t!"PauseResumeScript"
  | .sendMail => t!"SendMail"
  | .sendDdeExecute => t!"SendDdeExecute"
  | .dialPhone => t!"DialPhone"
  | .speak => t!"Speak"
  | .performApplescript => t!"PerformApplescript"
  | .«if» => t!"If"
  | .«else» => t!"Else"
  | .endIf => t!"EndIf"
  | .loop => t!"Loop"
  | .exitLoopIf => t!"ExitLoopIf"
  | .endLoop => t!"EndLoop"
  | .goToRelatedRecord => t!"GoToRelatedRecord"
  | .commitRecordsRequests => t!"CommitRecordsRequests"
  | .setField => t!"SetField"
  | .insertCalculatedResult => t!"InsertCalculatedResult"
  | .freezeWindow => t!"FreezeWindow"
  | .refreshWindow => t!"RefreshWindow"
  | .scrollWindow => t!"ScrollWindow"
  | .newFile => t!"NewFile"
  | .changePassword => t!"ChangePassword"
  | .setMultiUser => t!"SetMultiUser"
  | .allowUserAbort => t!"AllowUserAbort"
  | .setErrorCapture => t!"SetErrorCapture"
  | .showCustomDialog => t!"ShowCustomDialog"
  | .openScriptWorkspace => t!"OpenScriptWorkspace"
  | .blankLineComment => t!"BlankLineComment"
  | .haltScript => t!"HaltScript"
  | .replaceFieldContents => t!"ReplaceFieldContents"
  | .showHideTextRuler => t!"ShowHideTextRuler"
  | .beep => t!"Beep"
  | .setUseSystemFormats => t!"SetUseSystemFormats"
  | .recoverFile => t!"RecoverFile"
  | .saveACopyAsAddOnPackage => t!"SaveACopyAsAddOnPackage"
  | .setZoomLevel => t!"SetZoomLevel"
  | .copyAllRecordsRequests => t!"CopyAllRecordsRequests"
  | .goToPortalRow => t!"GoToPortalRow"
  | .copyRecordRequest => t!"CopyRecordRequest"
  | .fluchCacheToDisk => t!"FluchCacheToDisk"
  | .exitScript => t!"ExitScript"
  | .deletePortalRow => t!"DeletePortalRow"
  | .openPreferences => t!"OpenPreferences"
  | .correctWord => t!"CorrectWord"
  | .spellingOptions => t!"SpellingOptions"
  | .selectDictionaries => t!"SelectDictionaries"
  | .editUserDictionary => t!"EditUserDictionary"
  | .openUrl => t!"OpenUrl"
  | .openManageValueLists => t!"OpenManageValueLists"
  | .openSharing => t!"OpenSharing"
  | .openFileOptions => t!"OpenFileOptions"
  | .allowFormattingBar => t!"AllowFormattingBar"
  | .setNextSerialValue => t!"SetNextSerialValue"
  | .executeSql => t!"ExecuteSql"
  | .openHosts => t!"OpenHosts"
  | .moveResizeWindow => t!"MoveResizeWindow"
  | .arrangeAllWindows => t!"ArrangeAllWindows"
  | .closeWindow => t!"CloseWindow"
  | .newWindow => t!"NewWindow"
  | .selectWindow => t!"SelectWindow"
  | .setWindowTitle => t!"SetWindowTitle"
  | .elseIf => t!"ElseIf"
  | .constrainFoundSet => t!"ConstrainFoundSet"
  | .extendFoundSet => t!"ExtendFoundSet"
  | .performFindReplace => t!"PerformFindReplace"
  | .openFindReplace => t!"OpenFindReplace"
  | .setSelection => t!"SetSelection"
  | .insertFile => t!"InsertFile"
  | .exportFieldContents => t!"ExportFieldContents"
  | .openRecordRequest => t!"OpenRecordRequest"
  | .addAccount => t!"AddAccount"
  | .deleteAccount => t!"DeleteAccount"
  | .resetAccountPassword => t!"ResetAccountPassword"
  | .enableAccount => t!"EnableAccount"
  | .relogin => t!"Relogin"
  | .convertFile => t!"ConvertFile"
  | .openManageDataSources => t!"OpenManageDataSources"
  | .setVariable => t!"SetVariable"
  | .installMenuSet => t!"InstallMenuSet"
  | .saveRecordsAsExcel => t!"SaveRecordsAsExcel"
  | .saveRecordsAsPdf => t!"SaveRecordsAsPdf"
  | .goToObject => t!"GoToObject"
  | .setWebViewer => t!"SetWebViewer"
  | .setFieldByName => t!"SetFieldByName"
  | .installOntimerScript => t!"InstallOntimerScript"
  | .openEditSavedFinds => t!"OpenEditSavedFinds"
  | .performQuickFind => t!"PerformQuickFind"
  | .openManageLayouts => t!"OpenManageLayouts"
  | .saveRecordsAsSnapshotLink => t!"SaveRecordsAsSnapshotLink"
  | .sortRecordsByField => t!"SortRecordsByField"
  | .findMatchingRecords => t!"FindMatchingRecords"
  | .manageContainers => t!"ManageContainers"
  | .installPluginFile => t!"InstallPluginFile"
  | .insertPdf => t!"InsertPdf"
  | .insertAudioVideo => t!"InsertAudioVideo"
  | .insertFromUrl => t!"InsertFromUrl"
  | .insertFromDevice => t!"InsertFromDevice"
  | .performScriptOnServer => t!"PerformScriptOnServer"
  | .openManageThemes => t!"OpenManageThemes"
  | .showHideMenubar => t!"ShowHideMenubar"
  | .refreshObject => t!"RefreshObject"
  | .setLayoutObjectAnimation => t!"SetLayoutObjectAnimation"
  | .closePopover => t!"ClosePopover"
  | .openUploadToHost => t!"OpenUploadToHost"
  | .enableTouchKeyboard => t!"EnableTouchKeyboard"
  | .performJavascriptInWebViewer => t!"PerformJavascriptInWebViewer"
  | .commentedOut => t!"CommentedOut"
  | .avplayerPlay => t!"AvplayerPlay"
  | .avplayerSetPlaybackState => t!"AvplayerSetPlaybackState"
  | .avplayerSetOptions => t!"AvplayerSetOptions"
  | .refreshPortal => t!"RefreshPortal"
  | .getFolderPath => t!"GetFolderPath"
  | .truncateTable => t!"TruncateTable"
  | .openFavorites => t!"OpenFavorites"
  | .configureRegionMonitorScript => t!"ConfigureRegionMonitorScript"
  | .configureLocalNotification => t!"ConfigureLocalNotification"
  | .getFileExists => t!"GetFileExists"
  | .getFileSize => t!"GetFileSize"
  | .createDataFile => t!"CreateDataFile"
  | .openDataFile => t!"OpenDataFile"
  | .writeToDataFile => t!"WriteToDataFile"
  | .readFromDataFile => t!"ReadFromDataFile"
  | .getDataFilePosition => t!"GetDataFilePosition"
  | .setDataFilePosition => t!"SetDataFilePosition"
  | .closeDataFile => t!"CloseDataFile"
  | .deleteFile => t!"DeleteFile"
  | .renameFile => t!"RenameFile"
  | .setErrorLogging => t!"SetErrorLogging"
  | .configureNfcReading => t!"ConfigureNfcReading"
  | .configureMachineLearningModel => t!"ConfigureMachineLearningModel"
  | .executeFilemakerDataApi => t!"ExecuteFilemakerDataApi"
  | .openTransaction => t!"OpenTransaction"
  | .commitTransaction => t!"CommitTransaction"
  | .revertTransaction => t!"RevertTransaction"
  | .setSessionIdentifier => t!"SetSessionIdentifier"
  | .setDictionary => t!"SetDictionary"
  | .performScriptOnServerWithCallback => t!"PerformScriptOnServerWithCallback"
  | .triggerClarisConnectFlow => t!"TriggerClarisConnectFlow"
  | .assert => t!"Assert"

/-- src/component.rs:138-146, as `Instruction.variant`. -/
def Comparison.variant : Comparison → Str
  | .equal => t!"Equal"
  | .notEqual => t!"NotEqual"
  | .less => t!"Less"
  | .lessEqual => t!"LessEqual"
  | .greater => t!"Greater"
  | .greaterEqual => t!"GreaterEqual"
  | .cartesian => t!"Cartesian"

/-- A map: numbers become strings as keys. -/
def mapJson {α : Type} (f : α → Json) (m : HMap α) : Json := .obj (m.map fun e => (decimal e.1, f e.2))

/-- src/fm_script_engine/fm_script_engine_instructions.rs:485-490. -/
def ScriptStep.json (s : ScriptStep) : Json :=
  .obj [(t!"opcode", .str s.opcode.variant), (t!"index", .num s.index), (t!"switches", .arr (s.switches.map .str))]

/-- src/component.rs:20-28. -/
def FField.json (f : FField) : Json :=
  .obj [(t!"data_type", .str f.dataType), (t!"field_description", .str f.description), (t!"field_name", .str f.name),
    (t!"field_type", .str f.fieldType), (t!"created_by_account", .str f.createdByAccount), (t!"created_by_user", .str f.createdByUser)]

/-- src/component.rs:63-70. Here and below, `created_by_account` and `create_by_user` are never set. The `BTreeMap` of the fields is
iterated in ascending order. -/
def FTable.json (t : FTable) : Json :=
  .obj [(t!"table_name", .str t.name), (t!"created_by_account", .str []), (t!"create_by_user", .str []),
    (t!"fields", mapJson FField.json (sortByKey t.fields)), (t!"init", .bool t.init)]

/-- src/component.rs:95-102. -/
def FScript.json (s : FScript) : Json :=
  .obj [(t!"script_name", .str s.name), (t!"created_by_account", .str []), (t!"create_by_user", .str []),
    (t!"arguments", .arr (s.arguments.map .str)), (t!"instructions", .arr (s.instructions.map ScriptStep.json))]

/-- src/component.rs:42-49. -/
def FTest.json (t : FTest) : Json :=
  .obj [(t!"test_name", .str t.name), (t!"script", t.script.json), (t!"created_by_account", .str []), (t!"create_by_user", .str []),
    (t!"assertions", .arr (t.assertions.map .str))]

/-- src/component.rs:116-123. -/
def FOccurrence.json (o : FOccurrence) : Json :=
  .obj [(t!"table_occurence_name", .str o.name), (t!"table_actual", .num o.tableActual), (t!"table_actual_name", .str o.tableActualName),
    (t!"created_by_account", .str []), (t!"create_by_user", .str [])]

/-- src/component.rs:148-157. -/
def FRelationship.json (r : FRelationship) : Json :=
  .obj [(t!"table1", .num r.table1), (t!"table1_name", .str r.table1Name), (t!"field1", .num r.field1), (t!"table2", .num r.table2),
    (t!"table2_name", .str r.table2Name), (t!"field2", .num r.field2), (t!"comparison", .str r.comparison.variant)]

/-- src/component.rs:173-179. -/
def FLayout.json (l : FLayout) : Json :=
  .obj [(t!"layout_name", .str l.name), (t!"table_occurrence", .num l.tableOccurrence), (t!"created_by_account", .str []),
    (t!"create_by_user", .str [])]

/-- src/component.rs:192-197. -/
def FValueList.json (l : FValueList) : Json :=
  .obj [(t!"list_name", .str l.name), (t!"created_by_account", .str []), (t!"create_by_user", .str [])]

/-- src/component.rs:209-214. -/
def SourceLocation.json (l : SourceLocation) : Json :=
  .obj [(t!"source_type", .str l.sourceType), (t!"source_path", .str l.path), (t!"source_filename", .str l.filename)]

/-- src/component.rs:261-267. -/
def FDataSource.json (s : FDataSource) : Json :=
  .obj [(t!"source_name", .str s.name), (t!"source_location", s.location.json), (t!"created_by_account", .str s.createdByAccount),
    (t!"created_by_user", .str s.createdByUser)]

/-- src/file.rs:7-18. The `HashMap`s are iterated in the order of the lists. -/
def FmpFile.json (f : FmpFile) : Json :=
  .obj [(t!"name", .str f.name), (t!"tables", mapJson FTable.json f.tables), (t!"relationships", mapJson FRelationship.json f.relationships),
    (t!"layouts", mapJson FLayout.json f.layouts), (t!"value_lists", mapJson FValueList.json f.valueLists),
    (t!"scripts", mapJson FScript.json f.scripts), (t!"table_occurrences", mapJson FOccurrence.json f.tableOccurrences),
    (t!"data_sources", mapJson FDataSource.json f.dataSources), (t!"tests", .arr (f.tests.map FTest.json))]

/-- src/main.rs:55-56, 78-79: the text that is written. Serializing never fails. -/
def inspectText (f : FmpFile) : Str := prettyJson 0 f.json

end BurnFm
