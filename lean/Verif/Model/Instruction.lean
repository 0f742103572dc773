import Verif.Base

/-! Model of `src/fm_script_engine/fm_script_engine_instructions.rs`. Generated from the source text. -/

namespace BurnFm

/-- src/fm_script_engine/fm_script_engine_instructions.rs:6-199 `Instruction`. -/
inductive Instruction where
  | performScript
  | saveACopyAsXml
  | goToNextField
  | goToPreviousField
  | goToLayout
  | newRecordRequest
  | duplicateRecordRequest
  | deleteRecordRequest
  | deleteAllRecords
  | insertFromIndex
  | insertFromLastVisited
  | insertCurrentDate
  | insertCurrentTime
  | goToRecordRequestPage
  | goToField
  | checkSelection
  | checkRecord
  | checkFoundSet
  | unsortRecords
  | enterFindMode
  | showAllRecords
  | modifyLastFind
  | omitRecord
  | omitMultipleRecords
  | showOmmitedOnly
  | performFind
  | showHideToolbars
  | viewAs
  | adjustWindow
  | openHelp
  | openFile
  | closeFile
  | importRecords
  | exportRecords
  | saveACopyAs
  | openManageDatabase
  | sortRecords
  | relookupFieldContents
  | enterPreviewMode
  | printSetup
  | print
  | exitApplication
  | undoRedo
  | cut
  | copy
  | paste
  | clear
  | selectAll
  | revertRecordRequest
  | enterBrowserMode
  | insertPicture
  | sendEvent
  | insertCurrentUserName
  | insertText
  | pauseResumeScript
  | sendMail
  | sendDdeExecute
  | dialPhone
  | speak
  | performApplescript
  | «if»
  | «else»
  | endIf
  | loop
  | exitLoopIf
  | endLoop
  | goToRelatedRecord
  | commitRecordsRequests
  | setField
  | insertCalculatedResult
  | freezeWindow
  | refreshWindow
  | scrollWindow
  | newFile
  | changePassword
  | setMultiUser
  | allowUserAbort
  | setErrorCapture
  | showCustomDialog
  | openScriptWorkspace
  | blankLineComment
  | haltScript
  | replaceFieldContents
  | showHideTextRuler
  | beep
  | setUseSystemFormats
  | recoverFile
  | saveACopyAsAddOnPackage
  | setZoomLevel
  | copyAllRecordsRequests
  | goToPortalRow
  | copyRecordRequest
  | fluchCacheToDisk
  | exitScript
  | deletePortalRow
  | openPreferences
  | correctWord
  | spellingOptions
  | selectDictionaries
  | editUserDictionary
  | openUrl
  | openManageValueLists
  | openSharing
  | openFileOptions
  | allowFormattingBar
  | setNextSerialValue
  | executeSql
  | openHosts
  | moveResizeWindow
  | arrangeAllWindows
  | closeWindow
  | newWindow
  | selectWindow
  | setWindowTitle
  | elseIf
  | constrainFoundSet
  | extendFoundSet
  | performFindReplace
  | openFindReplace
  | setSelection
  | insertFile
  | exportFieldContents
  | openRecordRequest
  | addAccount
  | deleteAccount
  | resetAccountPassword
  | enableAccount
  | relogin
  | convertFile
  | openManageDataSources
  | setVariable
  | installMenuSet
  | saveRecordsAsExcel
  | saveRecordsAsPdf
  | goToObject
  | setWebViewer
  | setFieldByName
  | installOntimerScript
  | openEditSavedFinds
  | performQuickFind
  | openManageLayouts
  | saveRecordsAsSnapshotLink
  | sortRecordsByField
  | findMatchingRecords
  | manageContainers
  | installPluginFile
  | insertPdf
  | insertAudioVideo
  | insertFromUrl
  | insertFromDevice
  | performScriptOnServer
  | openManageThemes
  | showHideMenubar
  | refreshObject
  | setLayoutObjectAnimation
  | closePopover
  | openUploadToHost
  | enableTouchKeyboard
  | performJavascriptInWebViewer
  | commentedOut
  | avplayerPlay
  | avplayerSetPlaybackState
  | avplayerSetOptions
  | refreshPortal
  | getFolderPath
  | truncateTable
  | openFavorites
  | configureRegionMonitorScript
  | configureLocalNotification
  | getFileExists
  | getFileSize
  | createDataFile
  | openDataFile
  | writeToDataFile
  | readFromDataFile
  | getDataFilePosition
  | setDataFilePosition
  | closeDataFile
  | deleteFile
  | renameFile
  | setErrorLogging
  | configureNfcReading
  | configureMachineLearningModel
  | executeFilemakerDataApi
  | openTransaction
  | commitTransaction
  | revertTransaction
  | setSessionIdentifier
  | setDictionary
  | performScriptOnServerWithCallback
  | triggerClarisConnectFlow
  | assert
  deriving DecidableEq, Repr

/-- The explicit discriminants of src/fm_script_engine/fm_script_engine_instructions.rs:6-199. -/
def Instruction.code : Instruction → Nat
  | .performScript => 1
  | .saveACopyAsXml => 3
  | .goToNextField => 4
  | .goToPreviousField => 5
  | .goToLayout => 6
  | .newRecordRequest => 7
  | .duplicateRecordRequest => 8
  | .deleteRecordRequest => 9
  | .deleteAllRecords => 10
  | .insertFromIndex => 11
  | .insertFromLastVisited => 12
  | .insertCurrentDate => 13
  | .insertCurrentTime => 14
  | .goToRecordRequestPage => 16
  | .goToField => 17
  | .checkSelection => 18
  | .checkRecord => 19
  | .checkFoundSet => 20
  | .unsortRecords => 21
  | .enterFindMode => 22
  | .showAllRecords => 23
  | .modifyLastFind => 24
  | .omitRecord => 25
  | .omitMultipleRecords => 26
  | .showOmmitedOnly => 27
  | .performFind => 28
  | .showHideToolbars => 29
  | .viewAs => 30
  | .adjustWindow => 31
  | .openHelp => 32
  | .openFile => 33
  | .closeFile => 34
  | .importRecords => 35
  | .exportRecords => 36
  | .saveACopyAs => 37
  | .openManageDatabase => 38
  | .sortRecords => 39
  | .relookupFieldContents => 40
  | .enterPreviewMode => 41
  | .printSetup => 42
  | .print => 43
  | .exitApplication => 44
  | .undoRedo => 45
  | .cut => 46
  | .copy => 47
  | .paste => 48
  | .clear => 49
  | .selectAll => 50
  | .revertRecordRequest => 51
  | .enterBrowserMode => 55
  | .insertPicture => 56
  | .sendEvent => 57
  | .insertCurrentUserName => 60
  | .insertText => 61
  | .pauseResumeScript => 62
  | .sendMail => 63
  | .sendDdeExecute => 64
  | .dialPhone => 65
  | .speak => 66
  | .performApplescript => 67
  | .«if» => 68
  | .«else» => 69
  | .endIf => 70
  | .loop => 71
  | .exitLoopIf => 72
  | .endLoop => 73
  | .goToRelatedRecord => 74
  | .commitRecordsRequests => 75
  | .setField => 76
  | .insertCalculatedResult => 77
  | .freezeWindow => 79
  | .refreshWindow => 80
  | .scrollWindow => 81
  | .newFile => 82
  | .changePassword => 83
  | .setMultiUser => 84
  | .allowUserAbort => 85
  | .setErrorCapture => 86
  | .showCustomDialog => 87
  | .openScriptWorkspace => 88
  | .blankLineComment => 89
  | .haltScript => 90
  | .replaceFieldContents => 91
  | .showHideTextRuler => 92
  | .beep => 93
  | .setUseSystemFormats => 94
  | .recoverFile => 95
  | .saveACopyAsAddOnPackage => 96
  | .setZoomLevel => 97
  | .copyAllRecordsRequests => 98
  | .goToPortalRow => 99
  | .copyRecordRequest => 101
  | .fluchCacheToDisk => 102
  | .exitScript => 103
  | .deletePortalRow => 104
  | .openPreferences => 105
  | .correctWord => 106
  | .spellingOptions => 107
  | .selectDictionaries => 108
  | .editUserDictionary => 109
  | .openUrl => 111
  | .openManageValueLists => 112
  | .openSharing => 113
  | .openFileOptions => 114
  | .allowFormattingBar => 115
  | .setNextSerialValue => 116
  | .executeSql => 117
  | .openHosts => 118
  | .moveResizeWindow => 119
  | .arrangeAllWindows => 120
  | .closeWindow => 121
  | .newWindow => 122
  | .selectWindow => 123
  | .setWindowTitle => 124
  | .elseIf => 125
  | .constrainFoundSet => 126
  | .extendFoundSet => 127
  | .performFindReplace => 128
  | .openFindReplace => 129
  | .setSelection => 130
  | .insertFile => 131
  | .exportFieldContents => 132
  | .openRecordRequest => 133
  | .addAccount => 134
  | .deleteAccount => 135
  | .resetAccountPassword => 136
  | .enableAccount => 137
  | .relogin => 138
  | .convertFile => 139
  | .openManageDataSources => 140
  | .setVariable => 141
  | .installMenuSet => 142
  | .saveRecordsAsExcel => 143
  | .saveRecordsAsPdf => 144
  | .goToObject => 145
  | .setWebViewer => 146
  | .setFieldByName => 147
  | .installOntimerScript => 148
  | .openEditSavedFinds => 149
  | .performQuickFind => 150
  | .openManageLayouts => 151
  | .saveRecordsAsSnapshotLink => 152
  | .sortRecordsByField => 154
  | .findMatchingRecords => 155
  | .manageContainers => 156
  | .installPluginFile => 157
  | .insertPdf => 158
  | .insertAudioVideo => 159
  | .insertFromUrl => 160
  | .insertFromDevice => 161
  | .performScriptOnServer => 164
  | .openManageThemes => 165
  | .showHideMenubar => 166
  | .refreshObject => 167
  | .setLayoutObjectAnimation => 168
  | .closePopover => 169
  | .openUploadToHost => 172
  | .enableTouchKeyboard => 174
  | .performJavascriptInWebViewer => 175
  | .commentedOut => 176
  | .avplayerPlay => 177
  | .avplayerSetPlaybackState => 178
  | .avplayerSetOptions => 179
  | .refreshPortal => 180
  | .getFolderPath => 181
  | .truncateTable => 182
  | .openFavorites => 183
  | .configureRegionMonitorScript => 185
  | .configureLocalNotification => 187
  | .getFileExists => 188
  | .getFileSize => 189
  | .createDataFile => 190
  | .openDataFile => 191
  | .writeToDataFile => 192
  | .readFromDataFile => 193
  | .getDataFilePosition => 194
  | .setDataFilePosition => 195
  | .closeDataFile => 196
  | .deleteFile => 197
  | .renameFile => 199
  | .setErrorLogging => 200
  | .configureNfcReading => 201
  | .configureMachineLearningModel => 202
  | .executeFilemakerDataApi => 203
  | .openTransaction => 205
  | .commitTransaction => 206
  | .revertTransaction => 207
  | .setSessionIdentifier => 208
  | .setDictionary => 209
  | .performScriptOnServerWithCallback => 210
  | .triggerClarisConnectFlow => 211
  | .assert => 255

/-- src/fm_script_engine/fm_script_engine_instructions.rs:227-483 `INSTRUCTIONMAP` (255 entries). -/
def instructionMap : List (Option Instruction) :=
  [none, some .performScript, none, some .saveACopyAsXml, some .goToNextField, some .goToPreviousField,
   some .goToLayout, some .newRecordRequest, some .duplicateRecordRequest, some .deleteRecordRequest,
   some .deleteAllRecords, some .insertFromIndex, some .insertFromLastVisited, some .insertCurrentDate,
   some .insertCurrentTime, none, some .goToRecordRequestPage, some .goToField, some .checkSelection,
   some .checkRecord, some .checkFoundSet, some .unsortRecords, some .enterFindMode, some .showAllRecords,
   some .modifyLastFind, some .omitRecord, some .omitMultipleRecords, some .showOmmitedOnly,
   some .performFind, some .showHideToolbars, some .viewAs, some .adjustWindow, some .openHelp,
   some .openFile, some .closeFile, some .importRecords, some .exportRecords, some .saveACopyAs,
   some .openManageDatabase, some .sortRecords, some .relookupFieldContents, some .enterPreviewMode,
   some .printSetup, some .print, some .exitApplication, some .undoRedo, some .cut, some .copy, some .paste,
   some .clear, some .selectAll, some .revertRecordRequest, none, none, none, some .enterBrowserMode,
   some .insertPicture, some .sendEvent, none, none, some .insertCurrentUserName, some .insertText,
   some .pauseResumeScript, some .sendMail, some .sendDdeExecute, some .dialPhone, some .speak,
   some .performApplescript, some .«if», some .«else», some .endIf, some .loop, some .exitLoopIf,
   some .endLoop, some .goToRelatedRecord, some .commitRecordsRequests, some .setField,
   some .insertCalculatedResult, none, some .freezeWindow, some .refreshWindow, some .scrollWindow,
   some .newFile, some .changePassword, some .setMultiUser, some .allowUserAbort, some .setErrorCapture,
   some .showCustomDialog, some .openScriptWorkspace, some .blankLineComment, some .haltScript,
   some .replaceFieldContents, some .showHideTextRuler, some .beep, some .setUseSystemFormats,
   some .recoverFile, some .saveACopyAsAddOnPackage, some .setZoomLevel, some .copyAllRecordsRequests,
   some .goToPortalRow, none, some .copyRecordRequest, some .fluchCacheToDisk, some .exitScript,
   some .deletePortalRow, some .openPreferences, some .correctWord, some .spellingOptions,
   some .selectDictionaries, some .editUserDictionary, none, some .openUrl, some .openManageValueLists,
   some .openSharing, some .openFileOptions, some .allowFormattingBar, some .setNextSerialValue,
   some .executeSql, some .openHosts, some .moveResizeWindow, some .arrangeAllWindows, some .closeWindow,
   some .newWindow, some .selectWindow, some .setWindowTitle, some .elseIf, some .constrainFoundSet,
   some .extendFoundSet, some .performFindReplace, some .openFindReplace, some .setSelection,
   some .insertFile, some .exportFieldContents, some .openRecordRequest, some .addAccount,
   some .deleteAccount, some .resetAccountPassword, some .enableAccount, some .relogin, some .convertFile,
   some .openManageDataSources, some .setVariable, some .installMenuSet, some .saveRecordsAsExcel,
   some .saveRecordsAsPdf, some .goToObject, some .setWebViewer, some .setFieldByName,
   some .installOntimerScript, some .openEditSavedFinds, some .performQuickFind, some .openManageLayouts,
   some .saveRecordsAsSnapshotLink, none, some .sortRecordsByField, some .findMatchingRecords,
   some .manageContainers, some .installPluginFile, some .insertPdf, some .insertAudioVideo,
   some .insertFromUrl, some .insertFromDevice, none, none, some .performScriptOnServer,
   some .openManageThemes, some .showHideMenubar, some .refreshObject, some .setLayoutObjectAnimation,
   some .closePopover, none, none, some .openUploadToHost, none, some .enableTouchKeyboard,
   some .performJavascriptInWebViewer, some .commentedOut, some .avplayerPlay,
   some .avplayerSetPlaybackState, some .avplayerSetOptions, some .refreshPortal, some .getFolderPath,
   some .truncateTable, some .openFavorites, none, some .configureRegionMonitorScript, none,
   some .configureLocalNotification, some .getFileExists, some .getFileSize, some .createDataFile,
   some .openDataFile, some .writeToDataFile, some .readFromDataFile, some .getDataFilePosition,
   some .setDataFilePosition, some .closeDataFile, some .deleteFile, none, some .renameFile,
   some .setErrorLogging, some .configureNfcReading, some .configureMachineLearningModel,
   some .executeFilemakerDataApi, none, some .openTransaction, some .commitTransaction,
   some .revertTransaction, some .setSessionIdentifier, some .setDictionary,
   some .performScriptOnServerWithCallback, some .triggerClarisConnectFlow, none, none, none, none, none,
   none, none, none, none, none, none, none, none, none, none, none, none, none, none, none, none, none,
   none, none, none, none, none, none, none, none, none, none, none, none, none, none, none, none, none,
   none, none, none, some .assert]

/-- src/fm_script_engine/fm_script_engine_instructions.rs:201-225 `Instruction::from_str`; `none` is `Err(())`. -/
def Instruction.fromStr (input : Str) : Option Instruction :=
  if input = t!"perform_script" then some .performScript else
  if input = t!"go_to_layout" then some .goToLayout else
  if input = t!"go_to_record" ∨ input = t!"go_to_request" then some .goToRecordRequestPage else
  if input = t!"enter_find_mode" then some .enterFindMode else
  if input = t!"perform_find" then some .performFind else
  if input = t!"show_all_records" then some .showAllRecords else
  if input = t!"set_field" then some .setField else
  if input = t!"set_variable" then some .setVariable else
  if input = t!"loop" then some .loop else
  if input = t!"if" then some .«if» else
  if input = t!"elif" then some .elseIf else
  if input = t!"else" then some .«else» else
  if input = t!"exit_loop_if" then some .exitLoopIf else
  if input = t!"new_record_request" then some .newRecordRequest else
  if input = t!"exit_script" then some .exitScript else
  if input = t!"show_custom_dialog" then some .showCustomDialog else
  if input = t!"assert" then some .assert else
  none

/-- src/fm_script_engine/fm_script_engine_instructions.rs:486-490 `ScriptStep`. -/
structure ScriptStep where
  opcode : Instruction
  index : Nat
  switches : List Str
  deriving DecidableEq, Repr

end BurnFm
