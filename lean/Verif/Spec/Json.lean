import Verif.Model.Json

/-! JSON texts (RFC 8259), and how the components of a file are read off a JSON value. -/

namespace BurnFm.Spec

/-- White space of JSON. -/
def Blank (w : Str) : Prop := ∀ c ∈ w, c = ' ' ∨ c = '\t' ∨ c = '\n' ∨ c = '\r'

/-- The value of a hexadecimal digit. -/
def hexValue (c : Char) : Option Nat :=
  if 48 ≤ c.toNat ∧ c.toNat ≤ 57 then some (c.toNat - 48)
  else if 97 ≤ c.toNat ∧ c.toNat ≤ 102 then some (c.toNat - 87)
  else if 65 ≤ c.toNat ∧ c.toNat ≤ 70 then some (c.toNat - 55)
  else none

/-- The ways to write a character in a string. Left out: characters above U+FFFF written as two escapes. -/
inductive CharText : Char → Str → Prop
  | plain {c : Char} : 32 ≤ c.toNat → c ≠ '"' → c ≠ '\\' → CharText c [c]
  | quote : CharText '"' ['\\', '"']
  | backslash : CharText '\\' ['\\', '\\']
  | slash : CharText '/' ['\\', '/']
  | backspace : CharText (Char.ofNat 8) ['\\', 'b']
  | formFeed : CharText (Char.ofNat 12) ['\\', 'f']
  | lineFeed : CharText '\n' ['\\', 'n']
  | carriageReturn : CharText '\r' ['\\', 'r']
  | tab : CharText '\t' ['\\', 't']
  | code {a b c d : Char} {w x y z : Nat} : hexValue a = some w → hexValue b = some x → hexValue c = some y → hexValue d = some z →
      (4096 * w + 256 * x + 16 * y + z).isValidChar → CharText (Char.ofNat (4096 * w + 256 * x + 16 * y + z)) ['\\', 'u', a, b, c, d]

/-- What stands between the quotes. -/
inductive CharsText : Str → Str → Prop
  | nil : CharsText [] []
  | cons {c : Char} {s t u : Str} : CharText c t → CharsText s u → CharsText (c :: s) (t ++ u)

mutual

/-- `JsonText v t`: `t` is a JSON text for the value `v`. Of the numbers only the natural numbers are needed. -/
inductive JsonText : Json → Str → Prop
  | str {s t : Str} : CharsText s t → JsonText (.str s) ('"' :: t ++ ['"'])
  | num (n : Nat) : JsonText (.num n) (Nat.toDigits 10 n)
  | true : JsonText (.bool true) t!"true"
  | false : JsonText (.bool false) t!"false"
  | noItems {w : Str} : Blank w → JsonText (.arr []) ('[' :: w ++ [']'])
  | items {xs : List Json} {t : Str} : ItemsText xs t → JsonText (.arr xs) ('[' :: t ++ [']'])
  | noMembers {w : Str} : Blank w → JsonText (.obj []) ('{' :: w ++ ['}'])
  | members {ms : List (Str × Json)} {t : Str} : MembersText ms t → JsonText (.obj ms) ('{' :: t ++ ['}'])

/-- One or more values with commas between them. -/
inductive ItemsText : List Json → Str → Prop
  | one {x : Json} {a t b : Str} : Blank a → JsonText x t → Blank b → ItemsText [x] (a ++ (t ++ b))
  | more {x : Json} {xs : List Json} {a t b u : Str} : Blank a → JsonText x t → Blank b → ItemsText xs u →
      ItemsText (x :: xs) (a ++ (t ++ (b ++ ',' :: u)))

/-- One or more members with commas between them. -/
inductive MembersText : List (Str × Json) → Str → Prop
  | one {k : Str} {x : Json} {a s b c t d : Str} : Blank a → CharsText k s → Blank b → Blank c → JsonText x t → Blank d →
      MembersText [(k, x)] (a ++ ('"' :: (s ++ ('"' :: (b ++ (':' :: (c ++ (t ++ d))))))))
  | more {k : Str} {x : Json} {ms : List (Str × Json)} {a s b c t d u : Str} : Blank a → CharsText k s → Blank b → Blank c →
      JsonText x t → Blank d → MembersText ms u →
      MembersText ((k, x) :: ms) (a ++ ('"' :: (s ++ ('"' :: (b ++ (':' :: (c ++ (t ++ (d ++ ',' :: u)))))))))

end

/-! Reading values: members are found by their names, in whatever order they come. -/

def asText : Json → Option Str
  | .str s => some s
  | _ => none

def asNumber : Json → Option Nat
  | .num n => some n
  | _ => none

def asBool : Json → Option Bool
  | .bool b => some b
  | _ => none

def asList {α : Type} (read : Json → Option α) : Json → Option (List α)
  | .arr xs => xs.mapM read
  | _ => none

/-- The value of the member `name`. -/
def member (name : Str) : Json → Option Json
  | .obj ms => (ms.find? fun m => m.1 == name).map (·.2)
  | _ => none

/-- The number that some digits stand for. -/
def numberOf (s : Str) : Option Nat :=
  if s ≠ [] ∧ ∀ c ∈ s, 48 ≤ c.toNat ∧ c.toNat ≤ 57 then some (s.foldl (fun n c => 10 * n + (c.toNat - 48)) 0) else none

/-- An object whose members have numbers as names. -/
def asMap {α : Type} (read : Json → Option α) : Json → Option (List (Nat × α))
  | .obj ms => ms.mapM fun m => do return (← numberOf m.1, ← read m.2)
  | _ => none

def readField (j : Json) : Option FField := do
  return { dataType := ← (member t!"data_type" j).bind asText, description := ← (member t!"field_description" j).bind asText,
           name := ← (member t!"field_name" j).bind asText, fieldType := ← (member t!"field_type" j).bind asText,
           createdByAccount := ← (member t!"created_by_account" j).bind asText,
           createdByUser := ← (member t!"created_by_user" j).bind asText }

def readTable (j : Json) : Option FTable := do
  return { name := ← (member t!"table_name" j).bind asText, fields := ← (member t!"fields" j).bind (asMap readField),
           init := ← (member t!"init" j).bind asBool }

/-- The names of the steps. -/
def instructionNames : List (Str × Instruction) :=
  [(t!"PerformScript", .performScript), (t!"SaveACopyAsXml", .saveACopyAsXml), (t!"GoToNextField", .goToNextField),
   (t!"GoToPreviousField", .goToPreviousField), (t!"GoToLayout", .goToLayout), (t!"NewRecordRequest", .newRecordRequest),
   (t!"DuplicateRecordRequest", .duplicateRecordRequest), (t!"DeleteRecordRequest", .deleteRecordRequest),
   (t!"DeleteAllRecords", .deleteAllRecords), (t!"InsertFromIndex", .insertFromIndex),
   (t!"InsertFromLastVisited", .insertFromLastVisited), (t!"InsertCurrentDate", .insertCurrentDate),
   (t!"InsertCurrentTime", .insertCurrentTime), (t!"GoToRecordRequestPage", .goToRecordRequestPage), (t!"GoToField", .goToField),
   (t!"CheckSelection", .checkSelection), (t!"CheckRecord", .checkRecord), (t!"CheckFoundSet", .checkFoundSet),
   (t!"UnsortRecords", .unsortRecords), (t!"EnterFindMode", .enterFindMode), (t!"ShowAllRecords", .showAllRecords),
   (t!"ModifyLastFind", .modifyLastFind), (t!"OmitRecord", .omitRecord), (t!"OmitMultipleRecords", .omitMultipleRecords),
   (t!"ShowOmmitedOnly", .showOmmitedOnly), (t!"PerformFind", .performFind), (t!"ShowHideToolbars", .showHideToolbars),
   (t!"ViewAs", .viewAs), (t!"AdjustWindow", .adjustWindow), (t!"OpenHelp", .openHelp), (t!"OpenFile", .openFile),
   (t!"CloseFile", .closeFile), (t!"ImportRecords", .importRecords), (t!"ExportRecords", .exportRecords),
   (t!"SaveACopyAs", .saveACopyAs), (t!"OpenManageDatabase", .openManageDatabase), (t!"SortRecords", .sortRecords),
   (t!"RelookupFieldContents", .relookupFieldContents), (t!"EnterPreviewMode", .enterPreviewMode), (t!"PrintSetup", .printSetup),
   (t!"Print", .print), (t!"ExitApplication", .exitApplication), (t!"UndoRedo", .undoRedo), (t!"Cut", .cut), (t!"Copy", .copy),
   (t!"Paste", .paste), (t!"Clear", .clear), (t!"SelectAll", .selectAll), (t!"RevertRecordRequest", .revertRecordRequest),
   (t!"EnterBrowserMode", .enterBrowserMode), (t!"InsertPicture", .insertPicture), (t!"SendEvent", .sendEvent),
   (t!"InsertCurrentUserName", .insertCurrentUserName), (t!"InsertText", .insertText), (t!"PauseResumeScript", .pauseResumeScript),
   (t!"SendMail", .sendMail), (t!"SendDdeExecute", .sendDdeExecute), (t!"DialPhone", .dialPhone), (t!"Speak", .speak),
   (t!"PerformApplescript", .performApplescript), (t!"If", .«if»), (t!"Else", .«else»), (t!"EndIf", .endIf), (t!"Loop", .loop),
   (t!"ExitLoopIf", .exitLoopIf), (t!"EndLoop", .endLoop), (t!"GoToRelatedRecord", .goToRelatedRecord),
   (t!"CommitRecordsRequests", .commitRecordsRequests), (t!"SetField", .setField),
   (t!"InsertCalculatedResult", .insertCalculatedResult), (t!"FreezeWindow", .freezeWindow), (t!"RefreshWindow", .refreshWindow),
   (t!"ScrollWindow", .scrollWindow), (t!"NewFile", .newFile), (t!"ChangePassword", .changePassword),
   (t!"SetMultiUser", .setMultiUser), (t!"AllowUserAbort", .allowUserAbort), (t!"SetErrorCapture", .setErrorCapture),
   (t!"ShowCustomDialog", .showCustomDialog), (t!"OpenScriptWorkspace", .openScriptWorkspace),
   (t!"BlankLineComment", .blankLineComment), (t!"HaltScript", .haltScript), (t!"ReplaceFieldContents", .replaceFieldContents),
   (t!"ShowHideTextRuler", .showHideTextRuler), (t!"Beep", .beep), (t!"SetUseSystemFormats", .setUseSystemFormats),
   (t!"RecoverFile", .recoverFile), (t!"SaveACopyAsAddOnPackage", .saveACopyAsAddOnPackage), (t!"SetZoomLevel", .setZoomLevel),
   (t!"CopyAllRecordsRequests", .copyAllRecordsRequests), (t!"GoToPortalRow", .goToPortalRow),
   (t!"CopyRecordRequest", .copyRecordRequest), (t!"FluchCacheToDisk", .fluchCacheToDisk), (t!"ExitScript", .exitScript),
   (t!"DeletePortalRow", .deletePortalRow), (t!"OpenPreferences", .openPreferences), (t!"CorrectWord", .correctWord),
   (t!"SpellingOptions", .spellingOptions), (t!"SelectDictionaries", .selectDictionaries),
   (t!"EditUserDictionary", .editUserDictionary), (t!"OpenUrl", .openUrl), (t!"OpenManageValueLists", .openManageValueLists),
   (t!"OpenSharing", .openSharing), (t!"OpenFileOptions", .openFileOptions), (t!"AllowFormattingBar", .allowFormattingBar),
   (t!"SetNextSerialValue", .setNextSerialValue), (t!"ExecuteSql", .executeSql), (t!"OpenHosts", .openHosts),
   (t!"MoveResizeWindow", .moveResizeWindow), (t!"ArrangeAllWindows", .arrangeAllWindows), (t!"CloseWindow", .closeWindow),
   (t!"NewWindow", .newWindow), (t!"SelectWindow", .selectWindow), (t!"SetWindowTitle", .setWindowTitle), (t!"ElseIf", .elseIf),
   (t!"ConstrainFoundSet", .constrainFoundSet), (t!"ExtendFoundSet", .extendFoundSet), (t!"PerformFindReplace", .performFindReplace),
   (t!"OpenFindReplace", .openFindReplace), (t!"SetSelection", .setSelection), (t!"InsertFile", .insertFile),
   (t!"ExportFieldContents", .exportFieldContents), (t!"OpenRecordRequest", .openRecordRequest), (t!"AddAccount", .addAccount),
   (t!"DeleteAccount", .deleteAccount), (t!"ResetAccountPassword", .resetAccountPassword), (t!"EnableAccount", .enableAccount),
   (t!"Relogin", .relogin), (t!"ConvertFile", .convertFile), (t!"OpenManageDataSources", .openManageDataSources),
   (t!"SetVariable", .setVariable), (t!"InstallMenuSet", .installMenuSet), (t!"SaveRecordsAsExcel", .saveRecordsAsExcel),
   (t!"SaveRecordsAsPdf", .saveRecordsAsPdf), (t!"GoToObject", .goToObject), (t!"SetWebViewer", .setWebViewer),
   (t!"SetFieldByName", .setFieldByName), (t!"InstallOntimerScript", .installOntimerScript),
   (t!"OpenEditSavedFinds", .openEditSavedFinds), (t!"PerformQuickFind", .performQuickFind),
   (t!"OpenManageLayouts", .openManageLayouts), (t!"SaveRecordsAsSnapshotLink", .saveRecordsAsSnapshotLink),
   (t!"SortRecordsByField", .sortRecordsByField), (t!"FindMatchingRecords", .findMatchingRecords),
   (t!"ManageContainers", .manageContainers), (t!"InstallPluginFile", .installPluginFile), (t!"InsertPdf", .insertPdf),
   (t!"InsertAudioVideo", .insertAudioVideo), (t!"InsertFromUrl", .insertFromUrl), (t!"InsertFromDevice", .insertFromDevice),
   (t!"PerformScriptOnServer", .performScriptOnServer), (t!"OpenManageThemes", .openManageThemes),
   (t!"ShowHideMenubar", .showHideMenubar), (t!"RefreshObject", .refreshObject),
   (t!"SetLayoutObjectAnimation", .setLayoutObjectAnimation), (t!"ClosePopover", .closePopover),
   (t!"OpenUploadToHost", .openUploadToHost), (t!"EnableTouchKeyboard", .enableTouchKeyboard),
   (t!"PerformJavascriptInWebViewer", .performJavascriptInWebViewer), (t!"CommentedOut", .commentedOut),
   (t!"AvplayerPlay", .avplayerPlay), (t!"AvplayerSetPlaybackState", .avplayerSetPlaybackState),
   (t!"AvplayerSetOptions", .avplayerSetOptions), (t!"RefreshPortal", .refreshPortal), (t!"GetFolderPath", .getFolderPath),
   (t!"TruncateTable", .truncateTable), (t!"OpenFavorites", .openFavorites),
   (t!"ConfigureRegionMonitorScript", .configureRegionMonitorScript), (t!"ConfigureLocalNotification", .configureLocalNotification),
   (t!"GetFileExists", .getFileExists), (t!"GetFileSize", .getFileSize), (t!"CreateDataFile", .createDataFile),
   (t!"OpenDataFile", .openDataFile), (t!"WriteToDataFile", .writeToDataFile), (t!"ReadFromDataFile", .readFromDataFile),
   (t!"GetDataFilePosition", .getDataFilePosition), (t!"SetDataFilePosition", .setDataFilePosition),
   (t!"CloseDataFile", .closeDataFile), (t!"DeleteFile", .deleteFile), (t!"RenameFile", .renameFile),
   (t!"SetErrorLogging", .setErrorLogging), (t!"ConfigureNfcReading", .configureNfcReading),
   (t!"ConfigureMachineLearningModel", .configureMachineLearningModel), (t!"ExecuteFilemakerDataApi", .executeFilemakerDataApi),
   (t!"OpenTransaction", .openTransaction), (t!"CommitTransaction", .commitTransaction), (t!"RevertTransaction", .revertTransaction),
   (t!"SetSessionIdentifier", .setSessionIdentifier), (t!"SetDictionary", .setDictionary),
   (t!"PerformScriptOnServerWithCallback", .performScriptOnServerWithCallback),
   (t!"TriggerClarisConnectFlow", .triggerClarisConnectFlow), (t!"Assert", .assert)]

/-- The step with this name. -/
def instructionNamed (name : Str) : Option Instruction := (instructionNames.find? fun e => e.1 == name).map (·.2)

def readStep (j : Json) : Option ScriptStep := do
  return { opcode := ← (member t!"opcode" j).bind asText >>= instructionNamed, index := ← (member t!"index" j).bind asNumber,
           switches := ← (member t!"switches" j).bind (asList asText) }

def readScript (j : Json) : Option FScript := do
  return { name := ← (member t!"script_name" j).bind asText, arguments := ← (member t!"arguments" j).bind (asList asText),
           instructions := ← (member t!"instructions" j).bind (asList readStep) }

def readTest (j : Json) : Option FTest := do
  return { name := ← (member t!"test_name" j).bind asText, script := ← (member t!"script" j).bind readScript,
           assertions := ← (member t!"assertions" j).bind (asList asText) }

def readOccurrence (j : Json) : Option FOccurrence := do
  return { name := ← (member t!"table_occurence_name" j).bind asText, tableActual := ← (member t!"table_actual" j).bind asNumber,
           tableActualName := ← (member t!"table_actual_name" j).bind asText }

def comparisonNamed (name : Str) : Option Comparison :=
  ([(t!"Equal", .equal), (t!"NotEqual", .notEqual), (t!"Less", .less), (t!"LessEqual", .lessEqual), (t!"Greater", .greater),
    (t!"GreaterEqual", .greaterEqual), (t!"Cartesian", .cartesian)].find? fun e => e.1 == name).map (·.2)

def readRelationship (j : Json) : Option FRelationship := do
  return { table1 := ← (member t!"table1" j).bind asNumber, table1Name := ← (member t!"table1_name" j).bind asText,
           field1 := ← (member t!"field1" j).bind asNumber, table2 := ← (member t!"table2" j).bind asNumber,
           table2Name := ← (member t!"table2_name" j).bind asText, field2 := ← (member t!"field2" j).bind asNumber,
           comparison := ← (member t!"comparison" j).bind asText >>= comparisonNamed }

def readLayout (j : Json) : Option FLayout := do
  return { name := ← (member t!"layout_name" j).bind asText, tableOccurrence := ← (member t!"table_occurrence" j).bind asNumber }

def readValueList (j : Json) : Option FValueList := do
  return { name := ← (member t!"list_name" j).bind asText }

def readLocation (j : Json) : Option SourceLocation := do
  return { sourceType := ← (member t!"source_type" j).bind asText, path := ← (member t!"source_path" j).bind asText,
           filename := ← (member t!"source_filename" j).bind asText }

def readSource (j : Json) : Option FDataSource := do
  return { name := ← (member t!"source_name" j).bind asText, location := ← (member t!"source_location" j).bind readLocation,
           createdByAccount := ← (member t!"created_by_account" j).bind asText,
           createdByUser := ← (member t!"created_by_user" j).bind asText }

def readFile (j : Json) : Option FmpFile := do
  return { name := ← (member t!"name" j).bind asText, tables := ← (member t!"tables" j).bind (asMap readTable),
           relationships := ← (member t!"relationships" j).bind (asMap readRelationship),
           layouts := ← (member t!"layouts" j).bind (asMap readLayout), valueLists := ← (member t!"value_lists" j).bind (asMap readValueList),
           scripts := ← (member t!"scripts" j).bind (asMap readScript),
           tableOccurrences := ← (member t!"table_occurrences" j).bind (asMap readOccurrence),
           dataSources := ← (member t!"data_sources" j).bind (asMap readSource), tests := ← (member t!"tests" j).bind (asList readTest) }

end BurnFm.Spec
