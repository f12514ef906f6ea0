import Verif.AS.Rows

/-!
# The tables of the ActivityStreams package

Written by tools/gen_tables.py from the text of activitystreams/properties.py, models.py and package.py; not edited by hand.
-/
namespace Verif.AS

/-- activitystreams/properties.py:52-1417: the property classes (the line is that of the class statement) -/
def propTable : List PropRow := [
  { cls := "Id", line := 52, name := "id", read := "___id___", strict := false, expand := false, json := .default,
    write := "___id___", fromStr := false, parse := false, types := ["str"], functional := true, additional := [.url] },
  { cls := "Type", line := 67, name := "type", read := "__type___", strict := false, expand := false, json := .default,
    write := "__type___", fromStr := false, parse := false, types := ["str"], functional := false, additional := [] },
  { cls := "Attachment", line := 81, name := "attachment", read := "___attachment___", strict := false, expand := true, json := .href,
    write := "___attachment___", fromStr := true, parse := false, types := ["Object", "Link"], functional := false, additional := [] },
  { cls := "AttributedTo", line := 105, name := "attributedTo", read := "___attributedTo___", strict := false, expand := true, json :=
    .href,
    write := "___attributedTo___", fromStr := true, parse := false, types := ["Object", "Link"], functional := false, additional := [] },
  { cls := "Actor", line := 129, name := "actor", read := "___actor___", strict := false, expand := true, json := .href,
    write := "___actor___", fromStr := true, parse := false, types := ["Object", "Link"], functional := false, additional := [] },
  { cls := "Audience", line := 154, name := "audience", read := "___audience___", strict := false, expand := true, json := .href,
    write := "___audience___", fromStr := true, parse := false, types := ["Object", "Link"], functional := false, additional := [] },
  { cls := "Bcc", line := 177, name := "bcc", read := "___bcc___", strict := false, expand := true, json := .href,
    write := "___bcc___", fromStr := true, parse := false, types := ["Object", "Link"], functional := false, additional := [] },
  { cls := "Bto", line := 200, name := "bto", read := "___bto___", strict := false, expand := true, json := .href,
    write := "___bto___", fromStr := true, parse := false, types := ["Object", "Link"], functional := false, additional := [] },
  { cls := "Cc", line := 223, name := "cc", read := "___cc___", strict := false, expand := true, json := .href,
    write := "___cc___", fromStr := true, parse := false, types := ["Object", "Link"], functional := false, additional := [] },
  { cls := "Context", line := 246, name := "context", read := "___context___", strict := false, expand := true, json := .href,
    write := "___context___", fromStr := true, parse := false, types := ["Object", "Link"], functional := false, additional := [] },
  { cls := "Current", line := 274, name := "current", read := "___current___", strict := false, expand := true, json := .href,
    write := "___current___", fromStr := true, parse := false, types := ["CollectionPage", "Link"], functional := true, additional := [] },
  { cls := "First", line := 297, name := "first", read := "___first___", strict := false, expand := true, json := .href,
    write := "___first___", fromStr := true, parse := false, types := ["CollectionPage", "Link"], functional := true, additional := [] },
  { cls := "Generator", line := 320, name := "generator", read := "___generator___", strict := false, expand := true, json := .href,
    write := "___generator___", fromStr := true, parse := false, types := ["Object", "Link"], functional := false, additional := [] },
  { cls := "Icon", line := 342, name := "icon", read := "___icon___", strict := false, expand := true, json := .href,
    write := "___icon___", fromStr := true, parse := false, types := ["Object", "Link"], functional := false, additional := [] },
  { cls := "Image", line := 366, name := "image", read := "___image___", strict := false, expand := true, json := .href,
    write := "___image___", fromStr := true, parse := false, types := ["Object", "Link"], functional := false, additional := [] },
  { cls := "InReplyTo", line := 390, name := "inReplyTo", read := "___inReplyTo___", strict := false, expand := true, json := .href,
    write := "___inReplyTo___", fromStr := true, parse := false, types := ["Object", "Link"], functional := false, additional := [] },
  { cls := "Instrument", line := 413, name := "instrument", read := "___instrument___", strict := false, expand := true, json := .href,
    write := "___instrument___", fromStr := true, parse := false, types := ["Object", "Link"], functional := false, additional := [] },
  { cls := "Last", line := 436, name := "last", read := "___last___", strict := false, expand := true, json := .href,
    write := "___last___", fromStr := true, parse := false, types := ["CollectionPage", "Link"], functional := true, additional := [] },
  { cls := "Location", line := 459, name := "location", read := "___location___", strict := false, expand := true, json := .href,
    write := "___location___", fromStr := true, parse := false, types := ["Object", "Link"], functional := false, additional := [] },
  { cls := "Items", line := 482, name := "items", read := "___items___", strict := false, expand := true, json := .href,
    write := "___items___", fromStr := true, parse := false, types := ["Object", "Link"], functional := false, additional := [] },
  { cls := "OrderedItems", line := 505, name := "orderedItems", read := "___orderedItems___", strict := false, expand := true, json :=
    .href,
    write := "___orderedItems___", fromStr := true, parse := false, types := ["Object", "Link"], functional := false, additional := [] },
  { cls := "UnorderedItems", line := 528, name := "unorderedItems", read := "___unorderedItems___", strict := false, expand := true,
    json := .href,
    write := "___unorderedItems___", fromStr := true, parse := false, types := ["Object", "Link"], functional := false, additional := [] },
  { cls := "OneOf", line := 551, name := "oneOf", read := "___oneOf___", strict := false, expand := true, json := .href,
    write := "___oneOf___", fromStr := true, parse := false, types := ["Object", "Link"], functional := false, additional := [] },
  { cls := "AnyOf", line := 575, name := "anyOf", read := "___anyOf___", strict := false, expand := true, json := .href,
    write := "___anyOf___", fromStr := true, parse := false, types := ["Object", "Link"], functional := false, additional := [] },
  { cls := "Closed", line := 599, name := "closed", read := "___closed___", strict := false, expand := true, json := .hrefDate,
    write := "___closed___", fromStr := true, parse := false, types := ["Object", "Link", "datetime", "bool"], functional := false,
      additional := [] },
  { cls := "Origin", line := 625, name := "origin", read := "___origin___", strict := false, expand := true, json := .href,
    write := "___origin___", fromStr := true, parse := false, types := ["Object", "Link"], functional := false, additional := [] },
  { cls := "Next", line := 650, name := "next", read := "___next___", strict := false, expand := true, json := .href,
    write := "___next___", fromStr := true, parse := false, types := ["CollectionPage", "Link"], functional := true, additional := [] },
  { cls := "Object", line := 672, name := "object", read := "___object___", strict := false, expand := true, json := .href,
    write := "___object___", fromStr := true, parse := false, types := ["Object", "Link"], functional := false, additional := [] },
  { cls := "Prev", line := 699, name := "prev", read := "___prev___", strict := false, expand := true, json := .href,
    write := "___prev___", fromStr := true, parse := false, types := ["CollectionPage", "Link"], functional := true, additional := [] },
  { cls := "Preview", line := 721, name := "preview", read := "___preview___", strict := false, expand := true, json := .href,
    write := "___preview___", fromStr := true, parse := false, types := ["Object", "Link"], functional := false, additional := [] },
  { cls := "Result", line := 743, name := "result", read := "___result___", strict := false, expand := true, json := .href,
    write := "___result___", fromStr := true, parse := false, types := ["Object", "Link"], functional := false, additional := [] },
  { cls := "Replies", line := 767, name := "replies", read := "___replies___", strict := false, expand := true, json := .href,
    write := "___replies___", fromStr := true, parse := false, types := ["Collection"], functional := true, additional := [] },
  { cls := "Tag", line := 790, name := "tag", read := "___tag___", strict := false, expand := true, json := .href,
    write := "___tag___", fromStr := true, parse := false, types := ["Object", "Link", "dict"], functional := false, additional := [] },
  { cls := "Target", line := 815, name := "target", read := "___target___", strict := false, expand := true, json := .href,
    write := "___target___", fromStr := true, parse := false, types := ["Object", "Link"], functional := false, additional := [] },
  { cls := "To", line := 842, name := "to", read := "___to___", strict := false, expand := true, json := .href,
    write := "___to___", fromStr := true, parse := false, types := ["Object", "Link"], functional := false, additional := [] },
  { cls := "Url", line := 865, name := "url", read := "___url___", strict := false, expand := true, json := .href,
    write := "___url___", fromStr := true, parse := false, types := ["Link", "str"], functional := false, additional := [] },
  { cls := "Accuracy", line := 887, name := "accuracy", read := "___accuracy___", strict := false, expand := false, json := .default,
    write := "___accuracy___", fromStr := false, parse := false, types := ["float", "int"], functional := true, additional := [] },
  { cls := "Altitude", line := 903, name := "altitude", read := "___altitude___", strict := false, expand := false, json := .default,
    write := "___altitude___", fromStr := false, parse := false, types := ["float", "int"], functional := true, additional := [] },
  { cls := "Content", line := 920, name := "content", read := "___content___", strict := false, expand := false, json := .default,
    write := "___content___", fromStr := false, parse := false, types := ["str"], functional := false, additional := [] },
  { cls := "Name", line := 939, name := "name", read := "___name___", strict := false, expand := false, json := .default,
    write := "___name___", fromStr := false, parse := false, types := ["str", "dict"], functional := false, additional := [] },
  { cls := "Duration", line := 956, name := "duration", read := "___duration___", strict := false, expand := false, json := .delta,
    write := "___duration___", fromStr := false, parse := false, types := ["timedelta", "str"], functional := true, additional := [] },
  { cls := "Height", line := 982, name := "height", read := "_Height__height", strict := true, expand := false, json := .default,
    write := "_Height__height", fromStr := false, parse := false, types := ["int"], functional := true, additional := [.nonnegative] },
  { cls := "Href", line := 1001, name := "href", read := "___href___", strict := false, expand := false, json := .default,
    write := "___href___", fromStr := false, parse := false, types := ["str"], functional := true, additional := [] },
  { cls := "HrefLang", line := 1016, name := "hreflang", read := "___hreflang___", strict := false, expand := false, json := .default,
    write := "_HrefLang__hrefLang", fromStr := false, parse := false, types := ["str"], functional := true, additional := [] },
  { cls := "PartOf", line := 1032, name := "partOf", read := "___partOf___", strict := false, expand := true, json := .href,
    write := "___partOf___", fromStr := true, parse := false, types := ["Collection", "Link"], functional := true, additional := [] },
  { cls := "Latitude", line := 1054, name := "latitude", read := "___latitude___", strict := false, expand := false, json := .default,
    write := "___latitude___", fromStr := false, parse := false, types := ["float", "int"], functional := true, additional := [] },
  { cls := "Longitude", line := 1069, name := "longitude", read := "___longitude___", strict := false, expand := false, json := .default,
    write := "___longitude___", fromStr := false, parse := false, types := ["float", "int"], functional := true, additional := [] },
  { cls := "MediaType", line := 1084, name := "mediaType", read := "___mediaType___", strict := false, expand := false, json := .default,
    write := "___mediaType___", fromStr := false, parse := false, types := ["str"], functional := true, additional := [] },
  { cls := "EndTime", line := 1104, name := "endTime", read := "___endTime___", strict := false, expand := false, json := .date,
    write := "___endTime___", fromStr := false, parse := true, types := ["datetime", "str"], functional := true, additional :=
      [.datetime] },
  { cls := "Published", line := 1130, name := "published", read := "___published___", strict := false, expand := false, json := .date,
    write := "___published___", fromStr := false, parse := true, types := ["datetime", "str"], functional := true, additional :=
      [.datetime] },
  { cls := "StartTime", line := 1153, name := "startTime", read := "___startTime___", strict := false, expand := false, json := .date,
    write := "___startTime___", fromStr := false, parse := true, types := ["datetime", "str"], functional := true, additional :=
      [.datetime] },
  { cls := "Radius", line := 1178, name := "radius", read := "___radius___", strict := false, expand := false, json := .default,
    write := "___radius___", fromStr := false, parse := false, types := ["float", "int"], functional := true, additional :=
      [.nonnegative] },
  { cls := "Rel", line := 1196, name := "rel", read := "___rel___", strict := false, expand := false, json := .default,
    write := "___rel___", fromStr := false, parse := false, types := ["str"], functional := false, additional := [] },
  { cls := "StartIndex", line := 1216, name := "startIndex", read := "___startIndex___", strict := false, expand := false, json := .default,
    write := "___startIndex___", fromStr := false, parse := false, types := ["int"], functional := true, additional := [.nonnegative] },
  { cls := "Summary", line := 1233, name := "summary", read := "___summary___", strict := false, expand := false, json := .default,
    write := "___summary___", fromStr := false, parse := false, types := ["str"], functional := false, additional := [] },
  { cls := "TotalItems", line := 1249, name := "totalItems", read := "___totalItems___", strict := false, expand := false, json := .default,
    write := "___totalItems___", fromStr := false, parse := false, types := ["int"], functional := true, additional := [.nonnegative] },
  { cls := "Units", line := 1267, name := "units", read := "___units___", strict := false, expand := false, json := .default,
    write := "___units___", fromStr := false, parse := false, types := ["str"], functional := true, additional := [] },
  { cls := "Updated", line := 1284, name := "updated", read := "___updated___", strict := false, expand := false, json := .date,
    write := "___updated___", fromStr := false, parse := true, types := ["datetime", "str"], functional := true, additional :=
      [.datetime] },
  { cls := "Width", line := 1307, name := "width", read := "___width___", strict := false, expand := false, json := .default,
    write := "___width___", fromStr := false, parse := false, types := ["int"], functional := true, additional := [.nonnegative] },
  { cls := "Subject", line := 1324, name := "subject", read := "___subject___", strict := false, expand := true, json := .href,
    write := "___subject___", fromStr := true, parse := false, types := ["Object", "Link"], functional := true, additional := [] },
  { cls := "Relationship", line := 1348, name := "relationship", read := "___relationship___", strict := false, expand := false, json
    := .default,
    write := "___relationship___", fromStr := false, parse := false, types := ["Object", "str"], functional := false, additional := [] },
  { cls := "Describes", line := 1364, name := "describes", read := "___describes___", strict := false, expand := false, json := .default,
    write := "___describes___", fromStr := false, parse := false, types := ["Object"], functional := true, additional := [] },
  { cls := "FormerType", line := 1380, name := "formerType", read := "___formerType___", strict := false, expand := false, json := .default,
    write := "___formerType___", fromStr := false, parse := false, types := ["Object"], functional := false, additional := [] },
  { cls := "Deleted", line := 1396, name := "deleted", read := "___deleted___", strict := false, expand := false, json := .date,
    write := "___deleted___", fromStr := false, parse := false, types := ["datetime"], functional := true, additional := [.datetime] }]

/-- activitystreams/models.py:33-926: the classes (the line is that of the class statement) -/
def classTable : List ClassRow := [
  { cls := "Object", line := 33, type := "Object", bases := ["ApplicationActivityJson"], init := some {
    line := 47, params := ["id", "type", "attachment", "attributedTo", "audience", "content", "context", "name", "endTime",
      "generator", "icon", "image", "inReplyTo", "location", "preview", "published", "replies", "startTime", "summary", "tag",
      "updated", "url", "to", "bto", "cc", "bcc", "mediaType", "duration", "acontext"],
    required := [],
    body := [
      .call (some "ApplicationActivityJson") [("acontext", "acontext")] false,
      .set "id" "id",
      .keepOr "type" "type",
      .set "attachment" "attachment",
      .set "attributedTo" "attributedTo",
      .set "audience" "audience",
      .set "content" "content",
      .set "context" "context",
      .set "name" "name",
      .set "endTime" "endTime",
      .set "generator" "generator",
      .set "icon" "icon",
      .set "image" "image",
      .set "inReplyTo" "inReplyTo",
      .set "location" "location",
      .set "preview" "preview",
      .set "published" "published",
      .set "replies" "replies",
      .set "startTime" "startTime",
      .set "summary" "summary",
      .set "tag" "tag",
      .set "updated" "updated",
      .set "url" "url",
      .set "to" "to",
      .set "bto" "bto",
      .set "cc" "cc",
      .set "bcc" "bcc",
      .set "mediaType" "mediaType",
      .set "duration" "duration"] } },
  { cls := "Link", line := 87, type := "Link", bases := ["ApplicationActivityJson"], init := some {
    line := 104, params := ["href", "rel", "mediaType", "name", "hreflang", "height", "width", "preview", "context", "type", "acontext"],
    required := [],
    body := [
      .call (some "ApplicationActivityJson") [("acontext", "acontext")] false,
      .set "href" "href",
      .set "rel" "rel",
      .set "mediaType" "mediaType",
      .set "name" "name",
      .set "hreflang" "hreflang",
      .set "height" "height",
      .set "width" "width",
      .set "preview" "preview",
      .set "context" "context",
      .keepOr "type" "type"] } },
  { cls := "Activity", line := 246, type := "Activity", bases := ["Object"], init := some {
    line := 257, params := ["id", "type", "attachment", "attributedTo", "audience", "content", "context", "name", "endTime",
      "generator", "icon", "image", "inReplyTo", "location", "preview", "published", "replies", "startTime", "summary", "tag",
      "updated", "url", "to", "bto", "cc", "bcc", "mediaType", "duration", "actor", "object", "target", "result", "origin",
      "instrument", "acontext"],
    required := [],
    body := [
      .call none [("id", "id"), ("type", "type"), ("attachment", "attachment"), ("attributedTo", "attributedTo"), ("audience",
        "audience"), ("content", "content"), ("context", "context"), ("name", "name"), ("endTime", "endTime"), ("generator",
        "generator"), ("icon", "icon"), ("image", "image"), ("inReplyTo", "inReplyTo"), ("location", "location"), ("preview",
        "preview"), ("published", "published"), ("replies", "replies"), ("startTime", "startTime"), ("summary", "summary"), ("tag",
        "tag"), ("updated", "updated"), ("url", "url"), ("to", "to"), ("bto", "bto"), ("cc", "cc"), ("bcc", "bcc"), ("mediaType",
        "mediaType"), ("duration", "duration"), ("acontext", "acontext")] true,
      .set "actor" "actor",
      .set "object" "object",
      .set "target" "target",
      .set "result" "result",
      .set "origin" "origin",
      .set "instrument" "instrument"] } },
  { cls := "IntransitiveActivity", line := 288, type := "IntransitiveActivity", bases := ["Activity"], init := some {
    line := 296, params := ["id", "type", "attachment", "attributedTo", "audience", "content", "context", "name", "endTime",
      "generator", "icon", "image", "inReplyTo", "location", "preview", "published", "replies", "startTime", "summary", "tag",
      "updated", "url", "to", "bto", "cc", "bcc", "mediaType", "duration", "actor", "object", "target", "result", "origin",
      "instrument", "acontext"],
    required := [],
    body := [
      .call none [("id", "id"), ("type", "type"), ("attachment", "attachment"), ("attributedTo", "attributedTo"), ("audience",
        "audience"), ("content", "content"), ("context", "context"), ("name", "name"), ("endTime", "endTime"), ("generator",
        "generator"), ("icon", "icon"), ("image", "image"), ("inReplyTo", "inReplyTo"), ("location", "location"), ("preview",
        "preview"), ("published", "published"), ("replies", "replies"), ("startTime", "startTime"), ("summary", "summary"), ("tag",
        "tag"), ("updated", "updated"), ("url", "url"), ("to", "to"), ("bto", "bto"), ("cc", "cc"), ("bcc", "bcc"), ("mediaType",
        "mediaType"), ("duration", "duration"), ("actor", "actor"), ("object", "object"), ("target", "target"), ("result", "result"),
        ("origin", "origin"), ("instrument", "instrument"), ("acontext", "acontext")] true] } },
  { cls := "Collection", line := 320, type := "Collection", bases := ["Object"], init := some {
    line := 330, params := ["id", "type", "attachment", "attributedTo", "audience", "content", "context", "name", "endTime",
      "generator", "icon", "image", "inReplyTo", "location", "preview", "published", "replies", "startTime", "summary", "tag",
      "updated", "url", "to", "bto", "cc", "bcc", "mediaType", "duration", "totalItems", "current", "first", "last", "items",
      "acontext"],
    required := [],
    body := [
      .call none [("id", "id"), ("type", "type"), ("attachment", "attachment"), ("attributedTo", "attributedTo"), ("audience",
        "audience"), ("content", "content"), ("context", "context"), ("name", "name"), ("endTime", "endTime"), ("generator",
        "generator"), ("icon", "icon"), ("image", "image"), ("inReplyTo", "inReplyTo"), ("location", "location"), ("preview",
        "preview"), ("published", "published"), ("replies", "replies"), ("startTime", "startTime"), ("summary", "summary"), ("tag",
        "tag"), ("updated", "updated"), ("url", "url"), ("to", "to"), ("bto", "bto"), ("cc", "cc"), ("bcc", "bcc"), ("mediaType",
        "mediaType"), ("duration", "duration"), ("acontext", "acontext")] true,
      .set "current" "current",
      .set "first" "first",
      .set "last" "last",
      .keepOr "items" "items",
      .total "totalItems" "totalItems" "items"] } },
  { cls := "OrderedCollection", line := 370, type := "OrderedCollection", bases := ["Collection"], init := some {
    line := 377, params := ["id", "type", "attachment", "attributedTo", "audience", "content", "context", "name", "endTime",
      "generator", "icon", "image", "inReplyTo", "location", "preview", "published", "replies", "startTime", "summary", "tag",
      "updated", "url", "to", "bto", "cc", "bcc", "mediaType", "duration", "totalItems", "current", "first", "last", "orderedItems",
      "items", "acontext"],
    required := [],
    body := [
      .call none [("id", "id"), ("type", "type"), ("attachment", "attachment"), ("attributedTo", "attributedTo"), ("audience",
        "audience"), ("content", "content"), ("context", "context"), ("name", "name"), ("endTime", "endTime"), ("generator",
        "generator"), ("icon", "icon"), ("image", "image"), ("inReplyTo", "inReplyTo"), ("location", "location"), ("preview",
        "preview"), ("published", "published"), ("replies", "replies"), ("startTime", "startTime"), ("summary", "summary"), ("tag",
        "tag"), ("updated", "updated"), ("url", "url"), ("to", "to"), ("bto", "bto"), ("cc", "cc"), ("bcc", "bcc"), ("mediaType",
        "mediaType"), ("items", "items"), ("duration", "duration"), ("totalItems", "totalItems"), ("current", "current"), ("first",
        "first"), ("last", "last"), ("acontext", "acontext")] true,
      .set "orderedItems" "orderedItems"] } },
  { cls := "CollectionPage", line := 402, type := "CollectionPage", bases := ["Collection"], init := some {
    line := 410, params := ["id", "type", "attachment", "attributedTo", "audience", "content", "context", "name", "endTime",
      "generator", "icon", "image", "inReplyTo", "location", "preview", "published", "replies", "startTime", "summary", "tag",
      "updated", "url", "to", "bto", "cc", "bcc", "mediaType", "duration", "totalItems", "current", "first", "last", "items", "partOf",
      "next", "prev", "acontext"],
    required := [],
    body := [
      .call none [("id", "id"), ("type", "type"), ("attachment", "attachment"), ("attributedTo", "attributedTo"), ("audience",
        "audience"), ("content", "content"), ("context", "context"), ("name", "name"), ("endTime", "endTime"), ("generator",
        "generator"), ("icon", "icon"), ("image", "image"), ("inReplyTo", "inReplyTo"), ("location", "location"), ("preview",
        "preview"), ("published", "published"), ("replies", "replies"), ("startTime", "startTime"), ("summary", "summary"), ("tag",
        "tag"), ("updated", "updated"), ("url", "url"), ("to", "to"), ("bto", "bto"), ("cc", "cc"), ("bcc", "bcc"), ("mediaType",
        "mediaType"), ("duration", "duration"), ("totalItems", "totalItems"), ("current", "current"), ("first", "first"), ("last",
        "last"), ("items", "items"), ("acontext", "acontext")] true,
      .set "partOf" "partOf",
      .set "next" "next",
      .set "prev" "prev"] } },
  { cls := "OrderedCollectionPage", line := 438, type := "OrderedCollectionPage", bases := ["OrderedCollection", "CollectionPage"],
    init := some {
    line := 446, params := ["id", "type", "attachment", "attributedTo", "audience", "content", "context", "name", "endTime",
      "generator", "icon", "image", "inReplyTo", "location", "preview", "published", "replies", "startTime", "summary", "tag",
      "updated", "url", "to", "bto", "cc", "bcc", "mediaType", "duration", "totalItems", "current", "first", "last", "items", "partOf",
      "next", "prev", "startIndex", "orderedItems", "acontext"],
    required := [],
    body := [
      .call (some "OrderedCollection") [("orderedItems", "orderedItems")] false,
      .call (some "CollectionPage") [("id", "id"), ("type", "type"), ("attachment", "attachment"), ("attributedTo", "attributedTo"),
        ("audience", "audience"), ("content", "content"), ("context", "context"), ("name", "name"), ("endTime", "endTime"),
        ("generator", "generator"), ("icon", "icon"), ("image", "image"), ("inReplyTo", "inReplyTo"), ("location", "location"),
        ("preview", "preview"), ("published", "published"), ("replies", "replies"), ("startTime", "startTime"), ("summary", "summary"),
        ("tag", "tag"), ("updated", "updated"), ("url", "url"), ("to", "to"), ("bto", "bto"), ("cc", "cc"), ("bcc", "bcc"),
        ("mediaType", "mediaType"), ("duration", "duration"), ("totalItems", "totalItems"), ("current", "current"), ("first", "first"),
        ("last", "last"), ("partOf", "partOf"), ("next", "next"), ("prev", "prev"), ("acontext", "acontext")] false,
      .orZero "startIndex" "startIndex"] } },
  { cls := "Accept", line := 489, type := "Accept", bases := ["Activity"], init := none },
  { cls := "TentativeAccept", line := 498, type := "TentativeAccept", bases := ["Accept"], init := none },
  { cls := "Add", line := 505, type := "Add", bases := ["Activity"], init := none },
  { cls := "Arrive", line := 515, type := "Arrive", bases := ["IntransitiveActivity"], init := none },
  { cls := "Create", line := 524, type := "Create", bases := ["Activity"], init := none },
  { cls := "Delete", line := 531, type := "Delete", bases := ["Activity"], init := none },
  { cls := "Follow", line := 539, type := "Follow", bases := ["Activity"], init := none },
  { cls := "Ignore", line := 549, type := "Ignore", bases := ["Activity"], init := none },
  { cls := "Join", line := 557, type := "Join", bases := ["Activity"], init := none },
  { cls := "Leave", line := 565, type := "Leave", bases := ["Activity"], init := none },
  { cls := "Like", line := 573, type := "Like", bases := ["Activity"], init := none },
  { cls := "Offer", line := 581, type := "Offer", bases := ["Activity"], init := none },
  { cls := "Invite", line := 589, type := "Invite", bases := ["Offer"], init := none },
  { cls := "Reject", line := 597, type := "Reject", bases := ["Activity"], init := none },
  { cls := "TentativeReject", line := 605, type := "TentativeReject", bases := ["Reject"], init := none },
  { cls := "Remove", line := 612, type := "Remove", bases := ["Activity"], init := none },
  { cls := "Undo", line := 620, type := "Undo", bases := ["Activity"], init := none },
  { cls := "Update", line := 633, type := "Update", bases := ["Activity"], init := none },
  { cls := "View", line := 644, type := "View", bases := ["Activity"], init := none },
  { cls := "Listen", line := 651, type := "Listen", bases := ["Activity"], init := none },
  { cls := "Read", line := 658, type := "Read", bases := ["Activity"], init := none },
  { cls := "Move", line := 665, type := "Move", bases := ["Activity"], init := none },
  { cls := "Travel", line := 673, type := "Travel", bases := ["IntransitiveActivity"], init := none },
  { cls := "Announce", line := 682, type := "Announce", bases := ["Activity"], init := none },
  { cls := "Block", line := 691, type := "Block", bases := ["Ignore"], init := none },
  { cls := "Flag", line := 701, type := "Flag", bases := ["Activity"], init := none },
  { cls := "Dislike", line := 710, type := "Dislike", bases := ["Activity"], init := none },
  { cls := "Question", line := 717, type := "Question", bases := ["IntransitiveActivity"], init := some {
    line := 729, params := ["id", "type", "attachment", "attributedTo", "audience", "content", "context", "name", "endTime",
      "generator", "icon", "image", "inReplyTo", "location", "preview", "published", "replies", "startTime", "summary", "tag",
      "updated", "url", "to", "bto", "cc", "bcc", "mediaType", "duration", "actor", "object", "target", "result", "origin",
      "instrument", "oneOf", "anyOf", "closed", "acontext"],
    required := [],
    body := [
      .call none [("id", "id"), ("type", "type"), ("attachment", "attachment"), ("attributedTo", "attributedTo"), ("audience",
        "audience"), ("content", "content"), ("context", "context"), ("name", "name"), ("endTime", "endTime"), ("generator",
        "generator"), ("icon", "icon"), ("image", "image"), ("inReplyTo", "inReplyTo"), ("location", "location"), ("preview",
        "preview"), ("published", "published"), ("replies", "replies"), ("startTime", "startTime"), ("summary", "summary"), ("tag",
        "tag"), ("updated", "updated"), ("url", "url"), ("to", "to"), ("bto", "bto"), ("cc", "cc"), ("bcc", "bcc"), ("mediaType",
        "mediaType"), ("duration", "duration"), ("actor", "actor"), ("object", "object"), ("target", "target"), ("result", "result"),
        ("origin", "origin"), ("instrument", "instrument"), ("acontext", "acontext")] true,
      .set "oneOf" "oneOf",
      .set "anyOf" "anyOf",
      .set "closed" "closed"] } },
  { cls := "Application", line := 766, type := "Application", bases := ["Object"], init := none },
  { cls := "Group", line := 773, type := "Group", bases := ["Object"], init := none },
  { cls := "Organization", line := 780, type := "Organization", bases := ["Object"], init := none },
  { cls := "Person", line := 787, type := "Person", bases := ["Object"], init := none },
  { cls := "Service", line := 794, type := "Service", bases := ["Object"], init := none },
  { cls := "Relationship", line := 809, type := "Relationship", bases := ["Object"], init := some {
    line := 816, params := ["id", "subject", "object", "relationship"],
    required := ["id"],
    body := [
      .call none [("id", "id")] true,
      .set "subject" "subject",
      .set "object" "object",
      .set "relationship" "relationship"] } },
  { cls := "Article", line := 824, type := "Article", bases := ["Object"], init := none },
  { cls := "Document", line := 831, type := "Document", bases := ["Object"], init := none },
  { cls := "Audio", line := 838, type := "Audio", bases := ["Document"], init := none },
  { cls := "Image", line := 845, type := "Image", bases := ["Document"], init := none },
  { cls := "Video", line := 852, type := "Video", bases := ["Document"], init := none },
  { cls := "Note", line := 859, type := "Note", bases := ["Object"], init := none },
  { cls := "Page", line := 867, type := "Page", bases := ["Document"], init := none },
  { cls := "Event", line := 874, type := "Event", bases := ["Object"], init := none },
  { cls := "Place", line := 881, type := "Place", bases := ["Object"], init := some {
    line := 888, params := ["id", "accuracy", "altitude", "latitude", "longitude", "radius", "units"],
    required := ["id"],
    body := [
      .call none [("id", "id")] true,
      .set "accuracy" "accuracy",
      .set "altitude" "altitude",
      .set "latitude" "latitude",
      .set "longitude" "longitude",
      .set "radius" "radius",
      .set "units" "units"] } },
  { cls := "Profile", line := 899, type := "Profile", bases := ["Object"], init := some {
    line := 907, params := ["id", "describes"],
    required := ["id"],
    body := [
      .call none [("id", "id")] true,
      .set "describes" "describes"] } },
  { cls := "Tombstone", line := 912, type := "Tombstone", bases := ["Object"], init := some {
    line := 920, params := ["id", "former_type", "deleted"],
    required := ["id"],
    body := [
      .call none [("id", "id")] true,
      .set "former_type" "former_type",
      .set "deleted" "deleted"] } },
  { cls := "Mention", line := 926, type := "Mention", bases := ["Link"], init := none }]

/-- Bases and mro of the classes above and of jsonld/base.py:180, 294 and jsonld/jsonld.py:16, 126.  The mro is computed by Python from
the bases; Props/Model.lean checks it against C3. -/
def hierTable : List (String × List String × List String) := [
  ("object", [], ["object"]),
  ("NamespacedObject", ["object"], ["NamespacedObject", "object"]),
  ("PropertyAwareObject", ["NamespacedObject"], ["PropertyAwareObject", "NamespacedObject", "object"]),
  ("PropertyJsonLD", ["PropertyAwareObject"], ["PropertyJsonLD", "PropertyAwareObject", "NamespacedObject", "object"]),
  ("ApplicationActivityJson", ["PropertyJsonLD"], ["ApplicationActivityJson", "PropertyJsonLD", "PropertyAwareObject",
    "NamespacedObject", "object"]),
  ("Object", ["ApplicationActivityJson"], ["Object", "ApplicationActivityJson", "PropertyJsonLD", "PropertyAwareObject",
    "NamespacedObject", "object"]),
  ("Link", ["ApplicationActivityJson"], ["Link", "ApplicationActivityJson", "PropertyJsonLD", "PropertyAwareObject",
    "NamespacedObject", "object"]),
  ("Activity", ["Object"], ["Activity", "Object", "ApplicationActivityJson", "PropertyJsonLD", "PropertyAwareObject",
    "NamespacedObject", "object"]),
  ("IntransitiveActivity", ["Activity"], ["IntransitiveActivity", "Activity", "Object", "ApplicationActivityJson", "PropertyJsonLD",
    "PropertyAwareObject", "NamespacedObject", "object"]),
  ("Collection", ["Object"], ["Collection", "Object", "ApplicationActivityJson", "PropertyJsonLD", "PropertyAwareObject",
    "NamespacedObject", "object"]),
  ("OrderedCollection", ["Collection"], ["OrderedCollection", "Collection", "Object", "ApplicationActivityJson", "PropertyJsonLD",
    "PropertyAwareObject", "NamespacedObject", "object"]),
  ("CollectionPage", ["Collection"], ["CollectionPage", "Collection", "Object", "ApplicationActivityJson", "PropertyJsonLD",
    "PropertyAwareObject", "NamespacedObject", "object"]),
  ("OrderedCollectionPage", ["OrderedCollection", "CollectionPage"], ["OrderedCollectionPage", "OrderedCollection", "CollectionPage",
    "Collection", "Object", "ApplicationActivityJson", "PropertyJsonLD", "PropertyAwareObject", "NamespacedObject", "object"]),
  ("Accept", ["Activity"], ["Accept", "Activity", "Object", "ApplicationActivityJson", "PropertyJsonLD", "PropertyAwareObject",
    "NamespacedObject", "object"]),
  ("TentativeAccept", ["Accept"], ["TentativeAccept", "Accept", "Activity", "Object", "ApplicationActivityJson", "PropertyJsonLD",
    "PropertyAwareObject", "NamespacedObject", "object"]),
  ("Add", ["Activity"], ["Add", "Activity", "Object", "ApplicationActivityJson", "PropertyJsonLD", "PropertyAwareObject",
    "NamespacedObject", "object"]),
  ("Arrive", ["IntransitiveActivity"], ["Arrive", "IntransitiveActivity", "Activity", "Object", "ApplicationActivityJson",
    "PropertyJsonLD", "PropertyAwareObject", "NamespacedObject", "object"]),
  ("Create", ["Activity"], ["Create", "Activity", "Object", "ApplicationActivityJson", "PropertyJsonLD", "PropertyAwareObject",
    "NamespacedObject", "object"]),
  ("Delete", ["Activity"], ["Delete", "Activity", "Object", "ApplicationActivityJson", "PropertyJsonLD", "PropertyAwareObject",
    "NamespacedObject", "object"]),
  ("Follow", ["Activity"], ["Follow", "Activity", "Object", "ApplicationActivityJson", "PropertyJsonLD", "PropertyAwareObject",
    "NamespacedObject", "object"]),
  ("Ignore", ["Activity"], ["Ignore", "Activity", "Object", "ApplicationActivityJson", "PropertyJsonLD", "PropertyAwareObject",
    "NamespacedObject", "object"]),
  ("Join", ["Activity"], ["Join", "Activity", "Object", "ApplicationActivityJson", "PropertyJsonLD", "PropertyAwareObject",
    "NamespacedObject", "object"]),
  ("Leave", ["Activity"], ["Leave", "Activity", "Object", "ApplicationActivityJson", "PropertyJsonLD", "PropertyAwareObject",
    "NamespacedObject", "object"]),
  ("Like", ["Activity"], ["Like", "Activity", "Object", "ApplicationActivityJson", "PropertyJsonLD", "PropertyAwareObject",
    "NamespacedObject", "object"]),
  ("Offer", ["Activity"], ["Offer", "Activity", "Object", "ApplicationActivityJson", "PropertyJsonLD", "PropertyAwareObject",
    "NamespacedObject", "object"]),
  ("Invite", ["Offer"], ["Invite", "Offer", "Activity", "Object", "ApplicationActivityJson", "PropertyJsonLD", "PropertyAwareObject",
    "NamespacedObject", "object"]),
  ("Reject", ["Activity"], ["Reject", "Activity", "Object", "ApplicationActivityJson", "PropertyJsonLD", "PropertyAwareObject",
    "NamespacedObject", "object"]),
  ("TentativeReject", ["Reject"], ["TentativeReject", "Reject", "Activity", "Object", "ApplicationActivityJson", "PropertyJsonLD",
    "PropertyAwareObject", "NamespacedObject", "object"]),
  ("Remove", ["Activity"], ["Remove", "Activity", "Object", "ApplicationActivityJson", "PropertyJsonLD", "PropertyAwareObject",
    "NamespacedObject", "object"]),
  ("Undo", ["Activity"], ["Undo", "Activity", "Object", "ApplicationActivityJson", "PropertyJsonLD", "PropertyAwareObject",
    "NamespacedObject", "object"]),
  ("Update", ["Activity"], ["Update", "Activity", "Object", "ApplicationActivityJson", "PropertyJsonLD", "PropertyAwareObject",
    "NamespacedObject", "object"]),
  ("View", ["Activity"], ["View", "Activity", "Object", "ApplicationActivityJson", "PropertyJsonLD", "PropertyAwareObject",
    "NamespacedObject", "object"]),
  ("Listen", ["Activity"], ["Listen", "Activity", "Object", "ApplicationActivityJson", "PropertyJsonLD", "PropertyAwareObject",
    "NamespacedObject", "object"]),
  ("Read", ["Activity"], ["Read", "Activity", "Object", "ApplicationActivityJson", "PropertyJsonLD", "PropertyAwareObject",
    "NamespacedObject", "object"]),
  ("Move", ["Activity"], ["Move", "Activity", "Object", "ApplicationActivityJson", "PropertyJsonLD", "PropertyAwareObject",
    "NamespacedObject", "object"]),
  ("Travel", ["IntransitiveActivity"], ["Travel", "IntransitiveActivity", "Activity", "Object", "ApplicationActivityJson",
    "PropertyJsonLD", "PropertyAwareObject", "NamespacedObject", "object"]),
  ("Announce", ["Activity"], ["Announce", "Activity", "Object", "ApplicationActivityJson", "PropertyJsonLD", "PropertyAwareObject",
    "NamespacedObject", "object"]),
  ("Block", ["Ignore"], ["Block", "Ignore", "Activity", "Object", "ApplicationActivityJson", "PropertyJsonLD", "PropertyAwareObject",
    "NamespacedObject", "object"]),
  ("Flag", ["Activity"], ["Flag", "Activity", "Object", "ApplicationActivityJson", "PropertyJsonLD", "PropertyAwareObject",
    "NamespacedObject", "object"]),
  ("Dislike", ["Activity"], ["Dislike", "Activity", "Object", "ApplicationActivityJson", "PropertyJsonLD", "PropertyAwareObject",
    "NamespacedObject", "object"]),
  ("Question", ["IntransitiveActivity"], ["Question", "IntransitiveActivity", "Activity", "Object", "ApplicationActivityJson",
    "PropertyJsonLD", "PropertyAwareObject", "NamespacedObject", "object"]),
  ("Application", ["Object"], ["Application", "Object", "ApplicationActivityJson", "PropertyJsonLD", "PropertyAwareObject",
    "NamespacedObject", "object"]),
  ("Group", ["Object"], ["Group", "Object", "ApplicationActivityJson", "PropertyJsonLD", "PropertyAwareObject", "NamespacedObject",
    "object"]),
  ("Organization", ["Object"], ["Organization", "Object", "ApplicationActivityJson", "PropertyJsonLD", "PropertyAwareObject",
    "NamespacedObject", "object"]),
  ("Person", ["Object"], ["Person", "Object", "ApplicationActivityJson", "PropertyJsonLD", "PropertyAwareObject", "NamespacedObject",
    "object"]),
  ("Service", ["Object"], ["Service", "Object", "ApplicationActivityJson", "PropertyJsonLD", "PropertyAwareObject", "NamespacedObject",
    "object"]),
  ("Relationship", ["Object"], ["Relationship", "Object", "ApplicationActivityJson", "PropertyJsonLD", "PropertyAwareObject",
    "NamespacedObject", "object"]),
  ("Article", ["Object"], ["Article", "Object", "ApplicationActivityJson", "PropertyJsonLD", "PropertyAwareObject", "NamespacedObject",
    "object"]),
  ("Document", ["Object"], ["Document", "Object", "ApplicationActivityJson", "PropertyJsonLD", "PropertyAwareObject",
    "NamespacedObject", "object"]),
  ("Audio", ["Document"], ["Audio", "Document", "Object", "ApplicationActivityJson", "PropertyJsonLD", "PropertyAwareObject",
    "NamespacedObject", "object"]),
  ("Image", ["Document"], ["Image", "Document", "Object", "ApplicationActivityJson", "PropertyJsonLD", "PropertyAwareObject",
    "NamespacedObject", "object"]),
  ("Video", ["Document"], ["Video", "Document", "Object", "ApplicationActivityJson", "PropertyJsonLD", "PropertyAwareObject",
    "NamespacedObject", "object"]),
  ("Note", ["Object"], ["Note", "Object", "ApplicationActivityJson", "PropertyJsonLD", "PropertyAwareObject", "NamespacedObject",
    "object"]),
  ("Page", ["Document"], ["Page", "Document", "Object", "ApplicationActivityJson", "PropertyJsonLD", "PropertyAwareObject",
    "NamespacedObject", "object"]),
  ("Event", ["Object"], ["Event", "Object", "ApplicationActivityJson", "PropertyJsonLD", "PropertyAwareObject", "NamespacedObject",
    "object"]),
  ("Place", ["Object"], ["Place", "Object", "ApplicationActivityJson", "PropertyJsonLD", "PropertyAwareObject", "NamespacedObject",
    "object"]),
  ("Profile", ["Object"], ["Profile", "Object", "ApplicationActivityJson", "PropertyJsonLD", "PropertyAwareObject", "NamespacedObject",
    "object"]),
  ("Tombstone", ["Object"], ["Tombstone", "Object", "ApplicationActivityJson", "PropertyJsonLD", "PropertyAwareObject",
    "NamespacedObject", "object"]),
  ("Mention", ["Link"], ["Mention", "Link", "ApplicationActivityJson", "PropertyJsonLD", "PropertyAwareObject", "NamespacedObject",
    "object"])]

/-- activitystreams/package.py:6-61 `pkg_classes` -/
def pkgClasses : List String := ["Object", "Link", "Activity", "IntransitiveActivity", "Collection", "OrderedCollection",
  "CollectionPage", "OrderedCollectionPage", "Accept", "TentativeAccept", "Add", "Arrive", "Create", "Delete", "Follow", "Ignore",
  "Join", "Leave", "Like", "Offer", "Invite", "Reject", "TentativeReject", "Remove", "Undo", "Update", "View", "Listen", "Read",
  "Move", "Travel", "Announce", "Block", "Flag", "Dislike", "Question", "Application", "Group", "Organization", "Person", "Service",
  "Relationship", "Article", "Document", "Audio", "Image", "Video", "Note", "Page", "Event", "Place", "Profile", "Tombstone",
  "Mention"]

/-- package.py:63-128 `pkg_properties` -/
def pkgProperties : List String := ["Id", "Type", "Attachment", "AttributedTo", "Actor", "Audience", "Bcc", "Bto", "Cc", "Context",
  "Current", "First", "Generator", "Icon", "Image", "InReplyTo", "Instrument", "Last", "Location", "Items", "OrderedItems",
  "UnorderedItems", "OneOf", "AnyOf", "Closed", "Origin", "Next", "Object", "Prev", "Preview", "Result", "Replies", "Tag", "Target",
  "To", "Url", "Accuracy", "Altitude", "Content", "Name", "Duration", "Height", "Href", "HrefLang", "PartOf", "Latitude", "Longitude",
  "MediaType", "EndTime", "Published", "StartTime", "Radius", "Rel", "StartIndex", "Summary", "TotalItems", "Units", "Updated",
  "Width", "Subject", "Relationship", "Describes", "FormerType", "Deleted"]

/-- package.py:130-200 `property_mapping`, by class names (the code uses the namespaces of these classes) -/
def pkgMapping : List (String × List String) := [
  ("Object", ["Id", "Type", "Attachment", "AttributedTo", "Audience", "Content", "Name", "EndTime", "Generator", "Icon", "Image",
    "InReplyTo", "Location", "Preview", "Published", "Replies", "StartTime", "Summary", "Tag", "Updated", "Url", "To", "Bto", "Cc",
    "Bcc", "MediaType", "Duration"]),
  ("Link", ["Id", "Type", "Href", "Rel", "MediaType", "Name", "HrefLang", "Height", "Width", "Preview"]),
  ("Activity", ["Actor", "Object", "Target", "Result", "Origin", "Instrument"]),
  ("Collection", ["TotalItems", "Current", "First", "Last", "Items", "OrderedItems", "UnorderedItems"]),
  ("CollectionPage", ["PartOf", "Next", "Prev"]),
  ("OrderedCollectionPage", ["StartIndex"]),
  ("Question", ["OneOf", "AnyOf", "Closed"]),
  ("Relationship", ["Subject", "Object", "Relationship"]),
  ("Place", ["Accuracy", "Altitude", "Latitude", "Longitude", "Radius", "Units"]),
  ("Profile", ["Describes"]),
  ("Tombstone", ["FormerType", "Deleted"])]

end Verif.AS
